import Verif.Spec.SepSet
import Verif.Lemmas.SepSet

/-!
# Two `SeparationSet` objects sharing a memory of set objects behave like two independent values
-/

namespace Verif
open SepSet (hkey)
variable {α : Type} [LinearOrder α]

namespace SepWorld

/-- The objects have the given values. -/
structure Rel (w : SepWorld α) (v : Bool → SepSet α) : Prop where
  nodes : ∀ s, (w.obj s).nodes = (v s).nodes
  val : ∀ s k, (w.addr s k).map w.heap.mem = (v s).d.get? k

/-- Store a new set object. -/
def store (w : SepWorld α) (side : Bool) (k : α × α) (S : Finset α) : SepWorld α :=
  ⟨(w.heap.alloc S).2, Function.update w.obj side
    { w.obj side with d := Dict.set (w.obj side).d k (w.heap.alloc S).1 }⟩

def storeVal (v : Bool → SepSet α) (side : Bool) (k : α × α) (S : Finset α) : Bool → SepSet α :=
  Function.update v side { v side with d := Dict.set (v side).d k S }

theorem addr_store (w : SepWorld α) (side : Bool) (k : α × α) (S : Finset α) (s : Bool) (k' : α × α) :
    (w.store side k S).addr s k' = if s = side ∧ k' = k then some w.heap.next else w.addr s k' := by
  unfold addr store
  by_cases hs : s = side
  · subst hs
    simp only [Function.update_self, Dict.get?_set, Heap.alloc, true_and, eq_comm (a := k)]
  · simp [hs]

theorem get?_storeVal (v : Bool → SepSet α) (side : Bool) (k : α × α) (S : Finset α) (s : Bool) (k' : α × α) :
    (storeVal v side k S s).d.get? k' = if s = side ∧ k' = k then some S else (v s).d.get? k' := by
  unfold storeVal
  by_cases hs : s = side
  · subst hs; simp only [Function.update_self, Dict.get?_set, true_and, eq_comm (a := k)]
  · simp [hs]

theorem Unshared.store {w : SepWorld α} (h : w.Unshared) (side : Bool) (k : α × α) (S : Finset α) :
    (w.store side k S).Unshared := by
  constructor
  · intro s k' a ha
    rw [addr_store] at ha
    show a < w.heap.next + 1
    split at ha
    · cases ha; omega
    · have := h.lt _ _ _ ha; omega
  · intro s k1 s' k2 a h1 h2
    rw [addr_store] at h1 h2
    split at h1 <;> split at h2
    · rename_i e1 e2; exact ⟨e1.1.trans e2.1.symm, e1.2.trans e2.2.symm⟩
    · cases h1; have := h.lt _ _ _ h2; omega
    · cases h2; have := h.lt _ _ _ h1; omega
    · exact h.inj _ _ _ _ _ h1 h2

theorem Rel.store {w : SepWorld α} {v : Bool → SepSet α} (hw : w.Unshared) (h : w.Rel v) (side : Bool) (k : α × α)
    (S : Finset α) : (w.store side k S).Rel (storeVal v side k S) := by
  constructor
  · intro s
    unfold SepWorld.store storeVal
    by_cases hs : s = side
    · subst hs; simpa using h.nodes s
    · simpa [Function.update_of_ne hs] using h.nodes s
  · intro s k'
    rw [addr_store, get?_storeVal]
    split
    · simp [SepWorld.store, Heap.alloc]
    · rw [← h.val]
      cases ha : w.addr s k' with
      | none => rfl
      | some a =>
        have := hw.lt _ _ _ ha
        have hne : a ≠ w.heap.next := by omega
        simp [SepWorld.store, Heap.alloc, hne]

theorem store_obj (w : SepWorld α) (side : Bool) (k : α × α) (S : Finset α) :
    (w.store side k S).obj (!side) = w.obj (!side) := by
  exact Function.update_of_ne (by simp) _ _

theorem Unshared.mutate {w : SepWorld α} (h : w.Unshared) (a : Nat) (S : Finset α) : (⟨w.heap.write a S, w.obj⟩ : SepWorld α).Unshared :=
  ⟨h.lt, h.inj⟩

theorem Rel.mutate {w : SepWorld α} {v : Bool → SepSet α} (hw : w.Unshared) (h : w.Rel v) {side : Bool} {k : α × α} {a : Nat}
    (ha : w.addr side k = some a) (S : Finset α) :
    (⟨w.heap.write a S, w.obj⟩ : SepWorld α).Rel (storeVal v side k S) := by
  constructor
  · intro s
    unfold storeVal
    by_cases hs : s = side
    · subst hs; simpa using h.nodes s
    · simpa [Function.update_of_ne hs] using h.nodes s
  · intro s k'
    rw [get?_storeVal]
    show (w.addr s k').map _ = _
    split
    · rename_i e
      obtain ⟨rfl, rfl⟩ := e
      simp [ha, Heap.write]
    · rename_i e
      rw [← h.val]
      cases hb : w.addr s k' with
      | none => rfl
      | some b =>
        have hne : b ≠ a := by
          rintro rfl
          exact e (hw.inj _ _ _ _ _ hb ha)
        simp [Heap.write, hne]

theorem get_of_rel {w : SepWorld α} {v : Bool → SepSet α} (h : w.Rel v) (side : Bool) (a b : α) :
    ((w.obj side).get a b).map w.heap.mem = (v side).get a b := by
  have := h.val side (hkey a b)
  simp only [HSepSet.get, SepSet.get, Dict.get, addr] at *
  rw [← this]
  cases (w.obj side).d.get? (hkey a b) <;> rfl

omit [LinearOrder α] in
theorem world_eta (w : SepWorld α) (side : Bool) : (⟨w.heap, Function.update w.obj side (w.obj side)⟩ : SepWorld α) = w := by
  rw [Function.update_eq_self]

/-- Folding `store` over a list, in the `(object, heap)` form of the model. -/
theorem foldl_store (side : Bool) {β : Type} (key : β → α × α) (l : List β) : ∀ (w : SepWorld α),
    let r := l.foldl (fun (sh : HSepSet α × Heap α) x =>
      ({ sh.1 with d := Dict.set sh.1.d (key x) (sh.2.alloc ∅).1 }, (sh.2.alloc ∅).2)) (w.obj side, w.heap)
    (⟨r.2, Function.update w.obj side r.1⟩ : SepWorld α) = l.foldl (fun w x => w.store side (key x) ∅) w := by
  induction l with
  | nil => intro w; exact world_eta w side
  | cons x l ih =>
    intro w
    have := ih (w.store side (key x) ∅)
    simp only [List.foldl_cons]
    rw [← this]
    simp [store]

theorem foldl_store_spec (side : Bool) {β : Type} (key : β → α × α) (l : List β) : ∀ (w : SepWorld α) (v : Bool → SepSet α),
    w.Unshared → w.Rel v → (l.foldl (fun w x => w.store side (key x) ∅) w).Unshared ∧
      (l.foldl (fun w x => w.store side (key x) ∅) w).Rel (l.foldl (fun v x => storeVal v side (key x) ∅) v) := by
  induction l with
  | nil => intro w v h1 h2; exact ⟨h1, h2⟩
  | cons x l ih => intro w v h1 h2; exact ih _ _ (h1.store side (key x) ∅) (h2.store h1 side (key x) ∅)

theorem get?_foldl_storeVal (side : Bool) {β : Type} (key : β → α × α) (l : List β) : ∀ (v : Bool → SepSet α) (s : Bool) (k : α × α),
    (l.foldl (fun v x => storeVal v side (key x) ∅) v s).d.get? k =
      if s = side ∧ ∃ x ∈ l, key x = k then some ∅ else (v s).d.get? k := by
  induction l with
  | nil => intro v s k; simp
  | cons x l ih =>
    intro v s k
    simp only [List.foldl_cons]
    rw [ih, get?_storeVal]
    by_cases hs : s = side <;> by_cases hk : key x = k <;> simp [hs, hk, eq_comm (a := k)]

theorem nodes_foldl_storeVal (side : Bool) {β : Type} (key : β → α × α) (l : List β) : ∀ (v : Bool → SepSet α) (s : Bool),
    (l.foldl (fun v x => storeVal v side (key x) ∅) v s).nodes = (v s).nodes := by
  induction l with
  | nil => intro v s; rfl
  | cons x l ih =>
    intro v s
    simp only [List.foldl_cons]
    rw [ih]
    unfold storeVal
    by_cases hs : s = side
    · subst hs; simp
    · simp [Function.update_of_ne hs]

/-- Values only matter as maps. -/
theorem Rel.congr {w : SepWorld α} {v v' : Bool → SepSet α} (h : w.Rel v) (hn : ∀ s, (v s).nodes = (v' s).nodes)
    (hd : ∀ s k, (v s).d.get? k = (v' s).d.get? k) : w.Rel v' :=
  ⟨fun s => (h.nodes s).trans (hn s), fun s k => (h.val s k).trans (hd s k)⟩

/-- The copying loop: either both sides raise KeyError, or both succeed with related results. -/
theorem copyLoop_rel (side : Bool) (l : List (α × α)) : ∀ (w : SepWorld α) (v : Bool → SepSet α), w.Unshared → w.Rel v →
    (∃ t h r, l.foldlM (fun (th : HSepSet α × Heap α) ij => do
        let a ← (w.obj (!side)).get ij.1 ij.2
        return HSepSet.set th.1 th.2 ij.1 ij.2 (th.2.mem a)) (w.obj side, w.heap) = .ok (t, h) ∧
      l.foldlM (fun (t : SepSet α) ij => do
        let x ← (v (!side)).get ij.1 ij.2
        return { t with d := Dict.set t.d (hkey ij.1 ij.2) x }) (v side) = .ok r ∧
      (⟨h, Function.update w.obj side t⟩ : SepWorld α).Unshared ∧
      (⟨h, Function.update w.obj side t⟩ : SepWorld α).Rel (Function.update v side r)) ∨
    (l.foldlM (fun (th : HSepSet α × Heap α) ij => do
        let a ← (w.obj (!side)).get ij.1 ij.2
        return HSepSet.set th.1 th.2 ij.1 ij.2 (th.2.mem a)) (w.obj side, w.heap) = .error .keyError ∧
      l.foldlM (fun (t : SepSet α) ij => do
        let x ← (v (!side)).get ij.1 ij.2
        return { t with d := Dict.set t.d (hkey ij.1 ij.2) x }) (v side) = .error .keyError) := by
  induction l with
  | nil =>
    intro w v h1 h2
    refine Or.inl ⟨w.obj side, w.heap, v side, rfl, rfl, ?_, ?_⟩
    · rw [world_eta]; exact h1
    · rw [world_eta, Function.update_eq_self]; exact h2
  | cons ij l ih =>
    intro w v h1 h2
    have hg := get_of_rel h2 (!side) ij.1 ij.2
    cases ha : (w.obj (!side)).get ij.1 ij.2 with
    | error e =>
      have he : e = .keyError := by
        simp only [HSepSet.get, Dict.get] at ha
        split at ha <;> cases ha
        rfl
      subst he
      rw [ha] at hg
      refine Or.inr ⟨?_, ?_⟩
      · simp only [List.foldlM_cons, ha]; rfl
      · simp only [List.foldlM_cons, ← hg]; rfl
    | ok a =>
      rw [ha] at hg
      have hi := h1.store side (hkey ij.1 ij.2) (w.heap.mem a)
      have hr := h2.store h1 side (hkey ij.1 ij.2) (w.heap.mem a)
      have key := ih (w.store side (hkey ij.1 ij.2) (w.heap.mem a)) (storeVal v side (hkey ij.1 ij.2) (w.heap.mem a)) hi hr
      have e1 : (w.store side (hkey ij.1 ij.2) (w.heap.mem a)).obj (!side) = w.obj (!side) := store_obj _ _ _ _
      have e2 : storeVal v side (hkey ij.1 ij.2) (w.heap.mem a) (!side) = v (!side) := by
        unfold storeVal; rw [Function.update_of_ne (by simp)]
      have e3 : (w.store side (hkey ij.1 ij.2) (w.heap.mem a)).obj side =
          (HSepSet.set (w.obj side) w.heap ij.1 ij.2 (w.heap.mem a)).1 := by
        simp [store, HSepSet.set]
      have e4 : (w.store side (hkey ij.1 ij.2) (w.heap.mem a)).heap =
          (HSepSet.set (w.obj side) w.heap ij.1 ij.2 (w.heap.mem a)).2 := rfl
      have e5 : storeVal v side (hkey ij.1 ij.2) (w.heap.mem a) side =
          { v side with d := Dict.set (v side).d (hkey ij.1 ij.2) (w.heap.mem a) } := by
        simp [storeVal]
      have e6 : ∀ t, Function.update (w.store side (hkey ij.1 ij.2) (w.heap.mem a)).obj side t =
          Function.update w.obj side t := by
        intro t; simp [store]
      have e7 : ∀ r, Function.update (storeVal v side (hkey ij.1 ij.2) (w.heap.mem a)) side r =
          Function.update v side r := by
        intro t; simp [storeVal]
      simp only [e1, e2, e3, e4, e5, e6, e7] at key
      simp only [List.foldlM_cons, ha, ← hg]
      exact key

/-- `copy` with default arguments. -/
theorem copy_spec (o : SetOrder α) (s : HSepSet α) (h : Heap α)
    (hlt : ∀ k a, s.d.get? k = some a → a < h.next)
    (hinj : ∀ k k' a, s.d.get? k = some a → s.d.get? k' = some a → k = k')
    (hkeys : ∀ a ∈ s.nodes, ∀ b ∈ s.nodes, a ≠ b → ∃ x, s.get a b = .ok x) :
    ∃ t h', s.copy o h = .ok (t, h') ∧ t.nodes = s.nodes ∧
      (⟨h', fun side => if side then t else s⟩ : SepWorld α).Unshared ∧
      (∀ a b, (t.get a b).map h'.mem = if a ∈ s.nodes ∧ b ∈ s.nodes ∧ a ≠ b then (s.get a b).map h.mem
        else .error .keyError) ∧
      ∀ a b, (s.get a b).map h'.mem = (s.get a b).map h.mem := by
  set w0 : SepWorld α := ⟨h, fun side => if side then ⟨s.nodes, []⟩ else s⟩ with hw0
  set v0 : Bool → SepSet α := fun side => if side then ⟨s.nodes, []⟩ else
    ⟨s.nodes, s.d.map (fun kv => (kv.1, h.mem kv.2))⟩ with hv0
  have hI : w0.Unshared := by
    constructor
    · intro side k a ha
      cases side
      · exact hlt k a ha
      · cases ha
    · intro side k side' k' a ha ha'
      cases side <;> cases side'
      · exact ⟨rfl, hinj _ _ _ ha ha'⟩
      · cases ha'
      · cases ha
      · cases ha
  have hR : w0.Rel v0 := by
    constructor
    · intro side; cases side <;> rfl
    · intro side k
      cases side
      · show (s.d.get? k).map h.mem = Dict.get? (s.d.map (fun kv => (kv.1, h.mem kv.2))) k
        rw [Dict.get?_map]
      · rfl
  obtain ⟨i1, i2⟩ := foldl_store_spec true (fun ij : α × α => hkey ij.1 ij.2) (pairs (o.iter () s.nodes)) w0 v0 hI hR
  have he := foldl_store true (fun ij : α × α => hkey ij.1 ij.2) (pairs (o.iter () s.nodes)) w0
  simp only at he
  rw [← he] at i1 i2
  change (SepWorld.mk (HSepSet.init o s.nodes h).2 (Function.update w0.obj true (HSepSet.init o s.nodes h).1)).Unshared at i1
  change (SepWorld.mk (HSepSet.init o s.nodes h).2 (Function.update w0.obj true (HSepSet.init o s.nodes h).1)).Rel _ at i2
  set v1 := (pairs (o.iter () s.nodes)).foldl (fun v (ij : α × α) => storeVal v true (hkey ij.1 ij.2) ∅) v0 with hv1
  have hv1f : ∀ k, (v1 false).d.get? k = (s.d.get? k).map h.mem := by
    intro k
    rw [hv1, get?_foldl_storeVal]
    simp only [Bool.false_eq_true, false_and, if_false]
    show Dict.get? (s.d.map (fun kv => (kv.1, h.mem kv.2))) k = _
    rw [Dict.get?_map]
  have hv1get : ∀ a b, (v1 false).get a b = (s.get a b).map h.mem := by
    intro a b
    simp only [SepSet.get, HSepSet.get, Dict.get, hv1f]
    cases s.d.get? (hkey a b) <;> rfl
  obtain ⟨r, r1, r2, r3⟩ := SepSet.copyLoop_spec (v1 false) (pairs (o.iter () s.nodes)) (v1 true) (by
    intro ij hij
    obtain ⟨x, hx⟩ := hkeys _ ((o.mem _ _ _).mp (mem_pairs_left (a := ij.1) (b := ij.2) hij)) _
      ((o.mem _ _ _).mp (mem_pairs_right (a := ij.1) (b := ij.2) hij)) (mem_pairs_ne (o.nodup _ _) (a := ij.1) (b := ij.2) hij)
    exact ⟨h.mem x, by rw [hv1get, hx]; rfl⟩)
  rcases copyLoop_rel true (pairs (o.iter () s.nodes)) _ v1 i1 i2 with ⟨t, h', r', k1, k2, k3, k4⟩ | ⟨_, k2⟩
  · simp only [Bool.not_true] at k1 k2
    rw [r1] at k2; cases k2
    have hobj : ∀ t, Function.update (Function.update w0.obj true (HSepSet.init o s.nodes h).1) true t =
        fun side => if side then t else s := by
      intro t; funext side; cases side <;> simp [hw0]
    simp only [hobj] at k1 k3 k4
    have hkey' : ∀ a b, (∃ ij ∈ pairs (o.iter () s.nodes), hkey ij.1 ij.2 = hkey a b) ↔
        a ∈ s.nodes ∧ b ∈ s.nodes ∧ a ≠ b := SepSet.pair_key_iff o () s.nodes
    refine ⟨t, h', ?_, ?_, k3, ?_, ?_⟩
    · simpa [Function.update_self, hw0, HSepSet.copy, HSepSet.copyInto] using k1
    · have := k4.nodes true
      simp only [if_true, Function.update_self] at this
      rw [this, r2]
      rw [hv1, nodes_foldl_storeVal]
      rfl
    · intro a b
      have := get_of_rel k4 true a b
      simp only [if_true, Function.update_self] at this
      rw [this]
      simp only [SepSet.get, Dict.get, r3]
      by_cases hab : a ∈ s.nodes ∧ b ∈ s.nodes ∧ a ≠ b
      · rw [if_pos hab, if_pos ((hkey' a b).mpr hab)]
        exact hv1get a b
      · rw [if_neg hab, if_neg (fun h => hab ((hkey' a b).mp h))]
        rw [hv1, get?_foldl_storeVal, if_neg (fun h => hab ((hkey' a b).mp h.2))]
        rfl
    · intro a b
      have := get_of_rel k4 false a b
      simp only [Bool.false_eq_true, if_false] at this
      rw [this, Function.update_of_ne (by simp), hv1get]
  · simp only [Bool.not_true] at k2
    rw [r1] at k2; cases k2

theorem step {o : SetOrder α} {w : SepWorld α} {v : Bool → SepSet α} (h1 : w.Unshared) (h2 : w.Rel v) (op : SepOp α) :
    (∃ w' v', op.runHeap o w = .ok w' ∧ op.runVal o v = .ok v' ∧ w'.Unshared ∧ w'.Rel v') ∨
      (op.runHeap o w = .error .keyError ∧ op.runVal o v = .error .keyError) := by
  cases op with
  | set side a b S =>
    exact Or.inl ⟨_, _, rfl, rfl, h1.store side (hkey a b) S, h2.store h1 side (hkey a b) S⟩
  | erase side =>
    refine Or.inl ⟨_, _, rfl, rfl, ?_⟩
    have he := foldl_store side (fun kv : (α × α) × Nat => kv.1) (w.obj side).d w
    simp only [HSepSet.erase]
    simp only at he
    rw [he]
    obtain ⟨k1, k2⟩ := foldl_store_spec side (fun kv : (α × α) × Nat => kv.1) (w.obj side).d w v h1 h2
    refine ⟨k1, k2.congr (fun s => ?_) (fun s k => ?_)⟩
    · rw [nodes_foldl_storeVal]
      by_cases hs : s = side
      · subst hs; simp [SepSet.erase]
      · simp [Function.update_of_ne hs]
    · rw [get?_foldl_storeVal]
      by_cases hs : s = side
      · subst hs
        simp only [Function.update_self, SepSet.erase, true_and]
        rw [Dict.get?_map (v s).d (fun _ => (∅ : Finset α))]
        have hv := h2.val s k
        have hi := Dict.get?_isSome_iff (w.obj s).d k
        rw [← hv]
        simp only [addr] at *
        cases hx : (w.obj s).d.get? k with
        | none =>
          rw [hx] at hi
          rw [if_neg (fun h => by simpa using hi.mpr h)]; rfl
        | some x =>
          rw [hx] at hi
          rw [if_pos (hi.mp rfl)]; rfl
      · simp [hs]
  | mutate side a b S =>
    have hg := get_of_rel h2 side a b
    cases ha : (w.obj side).get a b with
    | error e =>
      have he : e = .keyError := by
        simp only [HSepSet.get, Dict.get] at ha
        split at ha <;> cases ha
        rfl
      subst he
      rw [ha] at hg
      refine Or.inr ⟨?_, ?_⟩
      · simp only [SepOp.runHeap, ha]; rfl
      · simp only [SepOp.runVal, ← hg]; rfl
    | ok ad =>
      rw [ha] at hg
      refine Or.inl ⟨_, _, by simp only [SepOp.runHeap, ha]; rfl, by simp only [SepOp.runVal, ← hg]; rfl,
        h1.mutate ad S, ?_⟩
      exact h2.mutate h1 (k := hkey a b) (Dict.get_eq_ok.mp ha) S
  | copyFrom side nodes =>
    rcases copyLoop_rel side (pairs (o.iter () nodes)) w v h1 h2 with ⟨t, h, r, k1, k2, k3, k4⟩ | ⟨k1, k2⟩
    · refine Or.inl ⟨_, _, ?_, ?_, k3, k4⟩
      · simp only [SepOp.runHeap, HSepSet.copyFrom, k1]; rfl
      · simp only [SepOp.runVal, SepSet.copyFrom, k2]; rfl
    · refine Or.inr ⟨?_, ?_⟩
      · simp only [SepOp.runHeap, HSepSet.copyFrom, k1]; rfl
      · simp only [SepOp.runVal, SepSet.copyFrom, k2]; rfl

end SepWorld
end Verif
