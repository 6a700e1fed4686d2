import Verif.Spec.GraphHeap
import Verif.Lemmas.Py

/-!
# Graph objects in memory behave like independent values
-/

namespace Verif
variable {ι α : Type} [DecidableEq ι] [DecidableEq α]
namespace GHeap

/-- The dictionaries of a graph as a value. -/
structure DG (α : Type) where
  nodes : Finset α
  types : List Mark
  c : α → Mark → Option (Finset α)

namespace DG

/-- An entry is written. -/
def put (Q : DG α) (v : α) (m : Mark) (S : Finset α) : DG α :=
  { Q with c := fun x m' => if x = v ∧ m' = m then some S else Q.c x m' }

/-- The dictionary of a node is emptied. -/
def drop (Q : DG α) (v : α) : DG α := { Q with c := fun x m => if x = v then none else Q.c x m }

/-- The dictionaries of a graph. -/
def ofMG (G : MG α) : DG α := ⟨G.nodes, G.types, fun v m => if v ∈ G.nodes ∧ m ∈ G.types then some (G.g v m) else none⟩

theorem ofMG_mem {G : MG α} {v : α} {m : Mark} (hv : v ∈ G.nodes) (hm : m ∈ G.types) : (ofMG G).c v m = some (G.g v m) := by
  simp [ofMG, hv, hm]

theorem put_ofMG {G : MG α} {v : α} {m : Mark} (hv : v ∈ G.nodes) (hm : m ∈ G.types) (f : Finset α → Finset α) :
    (ofMG G).put v m (f (G.g v m)) = ofMG (G.upd v m f) := by
  simp only [put, ofMG, MG.upd, DG.mk.injEq, true_and]
  funext x m'
  by_cases h : x = v ∧ m' = m
  · obtain ⟨rfl, rfl⟩ := h
    simp [hv, hm]
  · simp [h]

end DG

/-- The objects have the given dictionaries, and share no set objects but node sets. -/
structure Holds (w : GWorld ι α) (P : ι → DG α) : Prop where
  un : w.Unshared
  nodes : ∀ i, w.nodes i = (P i).nodes
  types : ∀ i, (w.obj i).types = (P i).types
  val : ∀ i v m, ((w.obj i).d v m).map w.heap.mem = (P i).c v m

omit [DecidableEq ι] in
theorem holds_iff {w : GWorld ι α} {V : ι → MG α} : Holds w (fun i => DG.ofMG (V i)) ↔ w.Unshared ∧ w.Shows V := by
  constructor
  · intro h
    refine ⟨h.un, h.nodes, h.types, fun i v hv m hm => ?_, fun i v m hn => ?_⟩
    · have := h.val i v m
      simp only [DG.ofMG, hv, hm, and_self, if_true] at this
      obtain ⟨a, h1, h2⟩ := Option.map_eq_some_iff.mp this
      simp [GWorld.marks, HGraph.read, HGraph.addr, h1, h2]
    · have := h.val i v m
      simp only [DG.ofMG, hn, if_false, Option.map_eq_none_iff] at this
      simp [GWorld.marks, HGraph.read, HGraph.addr, this]
  · rintro ⟨h0, h⟩
    refine ⟨h0, h.nodes, h.types, fun i v m => ?_⟩
    by_cases hvm : v ∈ (V i).nodes ∧ m ∈ (V i).types
    · have := h.marks i v hvm.1 m hvm.2
      simp only [DG.ofMG, hvm, and_self, if_true]
      simp only [GWorld.marks, HGraph.read, HGraph.addr] at this
      cases hd : (w.obj i).d v m with
      | none => rw [hd] at this; cases this
      | some a =>
        rw [hd] at this
        exact congrArg some (Except.ok.inj this)
    · have := h.none i v m hvm
      simp only [DG.ofMG, hvm, if_false]
      simp only [GWorld.marks, HGraph.read, HGraph.addr] at this
      cases hd : (w.obj i).d v m with
      | none => rfl
      | some a => rw [hd] at this; cases this

theorem Holds.modify {w : GWorld ι α} {P : ι → DG α} (h : Holds w P) {i : ι} {v : α} {m : Mark} {S : Finset α}
    (hc : (P i).c v m = some S) (f : Finset α → Finset α) :
    ∃ h', (w.obj i).modify v m f w.heap = .ok h' ∧ Holds ⟨h', w.obj⟩ (Function.update P i ((P i).put v m (f S))) := by
  obtain ⟨a, ha, rfl⟩ := Option.map_eq_some_iff.mp ((h.val i v m).trans hc)
  refine ⟨w.heap.write a (f (w.heap.mem a)), by simp [HGraph.modify, HGraph.addr, ha],
    ⟨h.un.lt, h.un.nodesLt, h.un.inj, h.un.sep⟩, fun k => ?_, fun k => ?_, fun k x m' => ?_⟩
  · have := h.nodes k
    have hne := (h.un.sep i v m a k ha).symm
    simp only [GWorld.nodes, Heap.write, if_neg hne] at this ⊢
    rw [this]
    by_cases e : k = i
    · subst e; simp [DG.put]
    · simp [e]
  · rw [show (GWorld.mk (w.heap.write a (f (w.heap.mem a))) w.obj).obj = w.obj from rfl, h.types k]
    by_cases e : k = i
    · subst e; simp [DG.put]
    · simp [e]
  · have hv := h.val k x m'
    by_cases e : k = i ∧ x = v ∧ m' = m
    · obtain ⟨rfl, rfl, rfl⟩ := e
      simp [ha, Heap.write, DG.put]
    · have hcell : (Function.update P i ((P i).put v m (f (w.heap.mem a))) k).c x m' = (P k).c x m' := by
        by_cases ei : k = i
        · subst ei
          simp only [Function.update_self, DG.put]
          rw [if_neg (fun h => e ⟨rfl, h⟩)]
        · simp [ei]
      rw [hcell, ← hv]
      cases hd : (w.obj k).d x m' with
      | none => rfl
      | some b =>
        have hb : b ≠ a := by
          rintro rfl
          obtain ⟨e1, e2, e3⟩ := h.un.inj k x m' i v m b hd ha
          exact e ⟨e1, e2, e3⟩
        simp [Heap.write, hb]

theorem Holds.put {w : GWorld ι α} {P : ι → DG α} {i : ι} {Hh : HGraph α × Heap α} {Q : DG α}
    (h : Holds (w.bind i Hh) (Function.update P i Q)) (v : α) (m : Mark) (S : Finset α) :
    Holds (w.bind i (HGraph.put v m S Hh)) (Function.update P i (Q.put v m S)) := by
  obtain ⟨H, hp⟩ := Hh
  have hd : ∀ k x m' a, ((w.bind i (HGraph.put v m S (H, hp))).obj k).d x m' = some a →
      (a = hp.next ∧ k = i ∧ x = v ∧ m' = m) ∨
        (((w.bind i (H, hp)).obj k).d x m' = some a ∧ a < hp.next ∧ ¬ (k = i ∧ x = v ∧ m' = m)) := by
    intro k x m' a ha
    by_cases e : k = i
    · subst e
      simp only [GWorld.bind, Function.update_self, HGraph.put, Heap.alloc] at ha ⊢
      split at ha
      · rename_i hx; cases ha; exact Or.inl ⟨rfl, trivial, hx⟩
      · rename_i hx
        have hl := h.un.lt k x m' a (by simpa [GWorld.bind] using ha)
        exact Or.inr ⟨ha, hl, fun h => hx h.2⟩
    · have ha' : ((w.bind i (H, hp)).obj k).d x m' = some a := by
        simpa [GWorld.bind, HGraph.put, e] using ha
      exact Or.inr ⟨ha', h.un.lt k x m' a ha', fun h => e h.1⟩
  have hnodes : ∀ k, ((w.bind i (HGraph.put v m S (H, hp))).obj k).nodes = ((w.bind i (H, hp)).obj k).nodes := by
    intro k
    by_cases e : k = i
    · subst e; simp [GWorld.bind, HGraph.put]
    · simp [GWorld.bind, HGraph.put, e]
  have hnl : ∀ k, ((w.bind i (H, hp)).obj k).nodes < hp.next := h.un.nodesLt
  refine ⟨⟨?_, ?_, ?_, ?_⟩, fun k => ?_, fun k => ?_, fun k x m' => ?_⟩
  · intro k x m' a ha
    show a < hp.next + 1
    rcases hd k x m' a ha with ⟨rfl, -⟩ | ⟨-, h', -⟩ <;> omega
  · intro k
    rw [hnodes]
    show _ < hp.next + 1
    have := hnl k
    omega
  · intro k x m1 k' x' m2 a ha hb
    rcases hd k x m1 a ha with ⟨e, h1⟩ | ⟨g1, g2, -⟩ <;> rcases hd k' x' m2 a hb with ⟨e', h1'⟩ | ⟨g1', g2', -⟩
    · exact ⟨h1.1.trans h1'.1.symm, h1.2.1.trans h1'.2.1.symm, h1.2.2.trans h1'.2.2.symm⟩
    · omega
    · omega
    · exact h.un.inj k x m1 k' x' m2 a g1 g1'
  · intro k x m' a k' ha
    rw [hnodes]
    rcases hd k x m' a ha with ⟨rfl, -⟩ | ⟨h', -, -⟩
    · have := hnl k'; omega
    · exact h.un.sep k x m' a k' h'
  · have := h.nodes k
    have hl := hnl k
    have e1 : (w.bind i (HGraph.put v m S (H, hp))).nodes k = (w.bind i (H, hp)).nodes k := by
      rw [GWorld.nodes, hnodes]
      show (if _ = hp.next then S else hp.mem _) = hp.mem _
      rw [if_neg (by omega)]
    rw [e1, this]
    by_cases e : k = i
    · subst e; simp [DG.put]
    · simp [e]
  · have := h.types k
    by_cases e : k = i
    · subst e; simpa [DG.put, GWorld.bind, HGraph.put] using this
    · simpa [e, GWorld.bind] using this
  · have hv := h.val k x m'
    by_cases e : k = i
    · subst e
      by_cases e2 : x = v ∧ m' = m
      · obtain ⟨rfl, rfl⟩ := e2
        simp [GWorld.bind, HGraph.put, Heap.alloc, DG.put]
      · simp only [GWorld.bind, Function.update_self, HGraph.put, Heap.alloc, DG.put, if_neg e2] at hv ⊢
        rw [← hv]
        cases hdd : H.d x m' with
        | none => rfl
        | some b =>
          have hb := h.un.lt k x m' b (by simpa [GWorld.bind] using hdd)
          have hb : b ≠ hp.next := by
            have : b < hp.next := hb
            omega
          simp [hb]
    · simp only [GWorld.bind, Function.update_of_ne e, HGraph.put, Heap.alloc] at hv ⊢
      rw [← hv]
      cases hdd : (w.obj k).d x m' with
      | none => rfl
      | some b =>
        have hb := h.un.lt k x m' b (by simpa [GWorld.bind, e] using hdd)
        have hb : b ≠ hp.next := by
          have : b < hp.next := hb
          omega
        simp [hb]

theorem Holds.drop {w : GWorld ι α} {P : ι → DG α} {i : ι} {H : HGraph α} {hp : Heap α} {Q : DG α}
    (h : Holds (w.bind i (H, hp)) (Function.update P i Q)) (v : α) :
    Holds (w.bind i ({ H with d := fun x m => if x = v then none else H.d x m }, hp)) (Function.update P i (Q.drop v)) := by
  have hd : ∀ k x m a, ((w.bind i ({ H with d := fun x m => if x = v then none else H.d x m }, hp)).obj k).d x m = some a →
      ((w.bind i (H, hp)).obj k).d x m = some a := by
    intro k x m a ha
    by_cases e : k = i
    · subst e
      simp only [GWorld.bind, Function.update_self] at ha ⊢
      split at ha
      · cases ha
      · exact ha
    · simpa [GWorld.bind, e] using ha
  have hnodes : ∀ k, ((w.bind i ({ H with d := fun x m => if x = v then none else H.d x m }, hp)).obj k).nodes =
      ((w.bind i (H, hp)).obj k).nodes := by
    intro k
    by_cases e : k = i
    · subst e; simp [GWorld.bind]
    · simp [GWorld.bind, e]
  refine ⟨⟨fun k x m a ha => h.un.lt k x m a (hd k x m a ha), fun k => hnodes k ▸ h.un.nodesLt k,
    fun k x m k' x' m' a ha hb => h.un.inj k x m k' x' m' a (hd _ _ _ _ ha) (hd _ _ _ _ hb),
    fun k x m a k' ha => hnodes k' ▸ h.un.sep k x m a k' (hd _ _ _ _ ha)⟩, fun k => ?_, fun k => ?_, fun k x m => ?_⟩
  · have := h.nodes k
    rw [GWorld.nodes, hnodes]
    refine this.trans ?_
    by_cases e : k = i
    · subst e; simp [DG.drop]
    · simp [e]
  · have := h.types k
    by_cases e : k = i
    · subst e; simpa [DG.drop, GWorld.bind] using this
    · simpa [e, GWorld.bind] using this
  · have := h.val k x m
    by_cases e : k = i
    · subst e
      simp only [GWorld.bind, Function.update_self, DG.drop] at this ⊢
      by_cases ex : x = v
      · simp [ex]
      · simp only [if_neg ex]
        exact this
    · simpa [GWorld.bind, e] using this

/-- The memory has grown. -/
def Ext (h h' : Heap α) : Prop := h.next ≤ h'.next ∧ ∀ a < h.next, h'.mem a = h.mem a

omit [DecidableEq α] in
theorem Ext.refl (h : Heap α) : Ext h h := ⟨le_rfl, fun _ _ => rfl⟩

omit [DecidableEq α] in
theorem Ext.trans {h1 h2 h3 : Heap α} (a : Ext h1 h2) (b : Ext h2 h3) : Ext h1 h3 :=
  ⟨a.1.trans b.1, fun x hx => (b.2 x (hx.trans_le a.1)).trans (a.2 x hx)⟩

omit [DecidableEq α] in
theorem Ext.alloc (h : Heap α) (S : Finset α) : Ext h (h.alloc S).2 :=
  ⟨Nat.le_succ _, fun a ha => by simp [Heap.alloc, Nat.ne_of_lt ha]⟩

theorem Ext.put (v : α) (m : Mark) (S : Finset α) (Hh : HGraph α × Heap α) : Ext Hh.2 (HGraph.put v m S Hh).2 := Ext.alloc _ _

theorem clear_fold {w : GWorld ι α} {P : ι → DG α} {i : ι} (v : α) : ∀ (l : List Mark) {Hh : HGraph α × Heap α} {Q : DG α},
    Holds (w.bind i Hh) (Function.update P i Q) →
    Holds (w.bind i (l.foldl (fun Hh m => HGraph.put v m ∅ Hh) Hh)) (Function.update P i (l.foldl (fun Q m => Q.put v m ∅) Q)) ∧
      Ext Hh.2 (l.foldl (fun Hh m => HGraph.put v m ∅ Hh) Hh).2
  | [], Hh, _, h => ⟨h, Ext.refl _⟩
  | m :: l, Hh, _, h => by
    obtain ⟨h1, h2⟩ := clear_fold v l (h.put v m ∅)
    exact ⟨h1, (Ext.put v m ∅ Hh).trans h2⟩

theorem put_fold (v : α) : ∀ (l : List Mark) (Q : DG α), l.foldl (fun Q m => Q.put v m ∅) Q =
    { Q with c := fun x m => if x = v ∧ m ∈ l then some ∅ else Q.c x m }
  | [], Q => by simp
  | m :: l, Q => by
    rw [List.foldl_cons, put_fold v l]
    simp only [DG.put, DG.mk.injEq, true_and]
    funext x m'
    by_cases hx : x = v
    · subst hx
      by_cases hm : m' ∈ l
      · simp [hm]
      · by_cases e : m' = m <;> simp [hm, e]
    · simp [hx]

/-- The dictionaries after `create_empty_graph`. -/
def DG.clear (Q : DG α) (S : Finset α) : DG α :=
  { Q with c := fun x m => if x ∈ S then (if m ∈ Q.types then some ∅ else none) else Q.c x m }

theorem clear_all {w : GWorld ι α} {P : ι → DG α} {i : ι} : ∀ (l : List α) {Hh : HGraph α × Heap α} {Q : DG α},
    Holds (w.bind i Hh) (Function.update P i Q) →
    Holds (w.bind i (l.foldl (fun Hh v => Hh.1.types.foldl (fun Hh m => HGraph.put v m ∅ Hh)
        ({ Hh.1 with d := fun x m => if x = v then none else Hh.1.d x m }, Hh.2)) Hh)) (Function.update P i (Q.clear l.toFinset)) ∧
      Ext Hh.2 (l.foldl (fun Hh v => Hh.1.types.foldl (fun Hh m => HGraph.put v m ∅ Hh)
        ({ Hh.1 with d := fun x m => if x = v then none else Hh.1.d x m }, Hh.2)) Hh).2
  | [], Hh, Q, h => by
    have : Q.clear ([] : List α).toFinset = Q := by simp [DG.clear]
    rw [this]
    exact ⟨h, Ext.refl _⟩
  | v :: l, Hh, Q, h => by
    have ht : Hh.1.types = Q.types := by simpa [GWorld.bind] using h.types i
    obtain ⟨h1, h2⟩ := clear_fold v Hh.1.types (Hh := ({ Hh.1 with d := fun x m => if x = v then none else Hh.1.d x m }, Hh.2)) (h.drop v)
    obtain ⟨h3, h4⟩ := clear_all l h1
    refine ⟨?_, h2.trans h4⟩
    have e : ((Hh.1.types.foldl (fun Q m => Q.put v m ∅) (Q.drop v))).clear l.toFinset = Q.clear (v :: l).toFinset := by
      rw [put_fold, ht]
      simp only [DG.clear, DG.drop, DG.mk.injEq, true_and]
      funext x m
      by_cases hl : x ∈ l
      · by_cases hm : m ∈ Q.types <;> simp [hl, hm]
      · by_cases hx : x = v
        · subst hx
          by_cases hm : m ∈ Q.types <;> simp [hl, hm]
        · simp [hl, hx]
    rw [← e]
    exact h3

theorem createEmpty_holds (o : SetOrder α) {w : GWorld ι α} {P : ι → DG α} {i : ι} (S : Finset α) {Hh : HGraph α × Heap α} {Q : DG α}
    (h : Holds (w.bind i Hh) (Function.update P i Q)) :
    Holds (w.bind i (HGraph.createEmpty o S Hh)) (Function.update P i (Q.clear S)) ∧ Ext Hh.2 (HGraph.createEmpty o S Hh).2 := by
  have e : (o.iter () S).toFinset = S := by
    ext x
    rw [List.mem_toFinset, o.mem]
  have := clear_all (o.iter () S) h
  rw [e] at this
  exact this

/-- The dictionaries after `create_complete_graph`. -/
def DG.fill (Q : DG α) (mark : Mark) (S : Finset α) (l : List α) : DG α :=
  { Q with c := fun x m => if x ∈ l ∧ m = mark then some (S.erase x) else Q.c x m }

theorem fill_all {w : GWorld ι α} {P : ι → DG α} {i : ι} (mark : Mark) (S : Finset α) :
    ∀ (l : List α) {Hh : HGraph α × Heap α} {Q : DG α}, Holds (w.bind i Hh) (Function.update P i Q) →
    Holds (w.bind i (l.foldl (fun Hh v => HGraph.put v mark (S.erase v) Hh) Hh)) (Function.update P i (Q.fill mark S l))
  | [], Hh, Q, h => by
    have : Q.fill mark S [] = Q := by simp [DG.fill]
    rw [this]
    exact h
  | v :: l, Hh, Q, h => by
    have e : (Q.put v mark (S.erase v)).fill mark S l = Q.fill mark S (v :: l) := by
      simp only [DG.fill, DG.put, DG.mk.injEq, true_and]
      funext x m
      by_cases hl : x ∈ l
      · by_cases hm : m = mark <;> simp [hl, hm]
      · by_cases hx : x = v
        · subst hx; simp [hl]
        · simp [hl, hx]
    rw [← e]
    exact fill_all mark S l (h.put v mark (S.erase v))

omit [DecidableEq α] in
/-- A new object without entries. -/
theorem Holds.blank {w : GWorld ι α} {P : ι → DG α} (h : Holds w P) (i : ι) {h' : Heap α} (hext : Ext w.heap h') {a : Nat}
    (ha : a < h'.next) (hsep : ∀ k v m b, (w.obj k).d v m = some b → b ≠ a) (types : List Mark) :
    Holds (w.bind i (⟨a, types, fun _ _ => none⟩, h')) (Function.update P i ⟨h'.mem a, types, fun _ _ => none⟩) := by
  have hd : ∀ k x m b, ((w.bind i (⟨a, types, fun _ _ => none⟩, h')).obj k).d x m = some b → (w.obj k).d x m = some b := by
    intro k x m b hb
    by_cases e : k = i
    · subst e; simp [GWorld.bind] at hb
    · simpa [GWorld.bind, e] using hb
  have hn : ∀ k, ((w.bind i (⟨a, types, fun _ _ => none⟩, h')).obj k).nodes = a ∨
      ((w.bind i (⟨a, types, fun _ _ => none⟩, h')).obj k).nodes = (w.obj k).nodes := by
    intro k
    by_cases e : k = i
    · subst e; simp [GWorld.bind]
    · simp [GWorld.bind, e]
  refine ⟨⟨fun k x m b hb => (h.un.lt k x m b (hd _ _ _ _ hb)).trans_le hext.1, fun k => ?_,
    fun k x m k' x' m' b hb hb' => h.un.inj k x m k' x' m' b (hd _ _ _ _ hb) (hd _ _ _ _ hb'), fun k x m b k' hb => ?_⟩,
    fun k => ?_, fun k => ?_, fun k x m => ?_⟩
  · rcases hn k with e | e <;> rw [e]
    · exact ha
    · exact (h.un.nodesLt k).trans_le hext.1
  · rcases hn k' with e | e <;> rw [e]
    · exact hsep k x m b (hd _ _ _ _ hb)
    · exact h.un.sep k x m b k' (hd _ _ _ _ hb)
  · by_cases e : k = i
    · subst e; simp [GWorld.bind, GWorld.nodes]
    · have := h.nodes k
      simp only [GWorld.bind, GWorld.nodes, Function.update_of_ne e] at this ⊢
      rw [← this, hext.2 _ (h.un.nodesLt k)]
  · by_cases e : k = i
    · subst e; simp [GWorld.bind]
    · simpa [GWorld.bind, e] using h.types k
  · by_cases e : k = i
    · subst e; simp [GWorld.bind]
    · have := h.val k x m
      simp only [GWorld.bind, Function.update_of_ne e] at this ⊢
      rw [← this]
      cases hb : (w.obj k).d x m with
      | none => rfl
      | some b => simp [hext.2 b (h.un.lt k x m b hb)]

/-- The objects have the values `V`. -/
abbrev Good (w : GWorld ι α) (V : ι → MG α) : Prop := Holds w (fun i => DG.ofMG (V i))

omit [DecidableEq α] in
theorem ofMG_update [DecidableEq α] (V : ι → MG α) (i : ι) (G : MG α) :
    (fun k => DG.ofMG (Function.update V i G k)) = Function.update (fun k => DG.ofMG (V k)) i (DG.ofMG G) := by
  funext k
  by_cases e : k = i
  · subst e; simp
  · simp [e]

omit [DecidableEq α] in
theorem bind_self (w : GWorld ι α) (i : ι) : w.bind i (w.obj i, w.heap) = w := by
  simp [GWorld.bind]

theorem new_good (o : SetOrder α) {w : GWorld ι α} {V : ι → MG α} (h : Good w V) (i : ι) {h' : Heap α} (hext : Ext w.heap h') {a : Nat}
    (ha : a < h'.next) (hsep : ∀ k v m b, (w.obj k).d v m = some b → b ≠ a) (types : List Mark) :
    Good (w.bind i (HGraph.new o a types h')) (Function.update V i (MG.empty (h'.mem a) types)) ∧ Ext h' (HGraph.new o a types h').2 := by
  obtain ⟨h1, h2⟩ := createEmpty_holds o (h'.mem a) (h.blank i hext ha hsep types)
  refine ⟨?_, h2⟩
  rw [Good, ofMG_update]
  have e : (⟨h'.mem a, types, fun _ _ => none⟩ : DG α).clear (h'.mem a) = DG.ofMG (MG.empty (h'.mem a) types) := by
    simp only [DG.clear, DG.ofMG, MG.empty, DG.mk.injEq, true_and]
    funext x m
    by_cases hx : x ∈ h'.mem a <;> simp [hx]
  rw [← e]
  exact h1

theorem clear_good (o : SetOrder α) {w : GWorld ι α} {V : ι → MG α} (h : Good w V) (i : ι) {S : Finset α} (hS : S ⊆ (V i).nodes) :
    Good (w.bind i (HGraph.createEmpty o S (w.obj i, w.heap))) (Function.update V i ((V i).clearOn S)) := by
  have h0 : Holds (w.bind i (w.obj i, w.heap)) (Function.update (fun k => DG.ofMG (V k)) i (DG.ofMG (V i))) := by
    rw [bind_self, ← ofMG_update, Function.update_eq_self]
    exact h
  obtain ⟨h1, -⟩ := createEmpty_holds o S h0
  rw [Good, ofMG_update]
  have e : (DG.ofMG (V i)).clear S = DG.ofMG ((V i).clearOn S) := by
    simp only [DG.clear, DG.ofMG, MG.clearOn, DG.mk.injEq, true_and]
    funext x m
    by_cases hx : x ∈ S
    · by_cases hm : m ∈ (V i).types <;> simp [hx, hS hx, hm]
    · simp [hx]
  rw [← e]
  exact h1

theorem complete_good (o : SetOrder α) {w : GWorld ι α} {V : ι → MG α} (h : Good w V) (i : ι) {mark : Mark} {S : Finset α}
    (hS : S ⊆ (V i).nodes) (hm : mark ∈ (V i).types) :
    Good (w.bind i (HGraph.createComplete o mark S (w.obj i, w.heap))) (Function.update V i ((V i).completeOn mark S)) := by
  have h0 := clear_good o h i hS
  rw [Good, ofMG_update] at h0 ⊢
  have h1 := fill_all mark S (o.iter 0 S) h0
  have e : (DG.ofMG ((V i).clearOn S)).fill mark S (o.iter 0 S) = DG.ofMG ((V i).completeOn mark S) := by
    simp only [DG.fill, DG.ofMG, MG.clearOn, MG.completeOn, DG.mk.injEq, true_and, o.mem]
    funext x m
    by_cases hx : x ∈ S
    · by_cases e : m = mark
      · subst e; simp [hx, hS hx, hm]
      · simp [hx, e]
    · simp [hx]
  rw [← e]
  exact h1

omit [DecidableEq ι] in
theorem read_ext {w : GWorld ι α} {V : ι → MG α} (h : Good w V) {i : ι} {h' : Heap α} (hext : Ext w.heap h') {v : α} {m : Mark}
    (hv : v ∈ (V i).nodes) (hm : m ∈ (V i).types) : (w.obj i).read h' v m = .ok ((V i).g v m) := by
  obtain ⟨a, h1, h2⟩ := Option.map_eq_some_iff.mp ((h.val i v m).trans (DG.ofMG_mem hv hm))
  rw [HGraph.read, HGraph.addr, h1, ← h2, ← hext.2 a (h.un.lt i v m a h1)]
  rfl

theorem copy_good (o : SetOrder α) {w : GWorld ι α} {V : ι → MG α} (h : Good w V) (i j : ι) (hp : (V i).IsPdag) :
    ∃ r, (w.obj i).copy o w.heap = .ok r ∧ Good (w.bind j r) (Function.update V j (V i)) := by
  have hmem : w.heap.mem (w.obj i).nodes = (V i).nodes := h.nodes i
  obtain ⟨n1, n2⟩ := new_good o h j (Ext.refl _) (h.un.nodesLt i) (fun k v m b hb => h.un.sep k v m b i hb) [.tail, .arrow]
  rw [hmem, Good, ofMG_update] at n1
  have ht : Mark.tail ∈ (V i).types := by rw [hp]; simp
  have ha : Mark.arrow ∈ (V i).types := by rw [hp]; simp
  have key : ∀ (l : List α) (Th : HGraph α × Heap α) (Q : DG α), (∀ v ∈ l, v ∈ (V i).nodes) → Ext w.heap Th.2 →
      Holds (w.bind j Th) (Function.update (fun k => DG.ofMG (V k)) j Q) →
      ∃ r, l.foldlM (fun (Th : HGraph α × Heap α) v => do
        let s ← (w.obj i).read Th.2 v .tail
        let Th := HGraph.put v .tail s Th
        let s ← (w.obj i).read Th.2 v .arrow
        return HGraph.put v .arrow s Th) Th = .ok r ∧
        Holds (w.bind j r) (Function.update (fun k => DG.ofMG (V k)) j
          { Q with c := fun x m => if x ∈ l ∧ m ∈ (V i).types then some ((V i).g x m) else Q.c x m }) := by
    intro l
    induction l with
    | nil => exact fun Th Q _ _ hQ => ⟨Th, rfl, by simpa using hQ⟩
    | cons v l ih =>
      intro Th Q hl hext hQ
      have hv := hl v (by simp)
      have e2 : Ext w.heap (HGraph.put v .tail ((V i).g v .tail) Th).2 := hext.trans (Ext.put _ _ _ _)
      obtain ⟨r, r1, r2⟩ := ih (HGraph.put v .arrow ((V i).g v .arrow) (HGraph.put v .tail ((V i).g v .tail) Th)) _
        (fun x hx => hl x (by simp [hx])) (e2.trans (Ext.put _ _ _ _)) ((hQ.put v .tail ((V i).g v .tail)).put v .arrow ((V i).g v .arrow))
      refine ⟨r, ?_, ?_⟩
      · rw [← r1]
        refine foldlM_cons_ok ?_
        rw [py_bind (read_ext h hext hv ht), py_bind (read_ext h e2 hv ha)]
        rfl
      · refine Eq.mp ?_ r2
        congr 2
        simp only [DG.put, DG.mk.injEq, true_and]
        funext x m
        have hmt : m ∈ (V i).types ↔ m = .tail ∨ m = .arrow := by rw [hp]; simp
        by_cases hx : x ∈ l
        · by_cases hm : m ∈ (V i).types
          · simp [hx, hm]
          · rw [hmt] at hm
            push Not at hm
            simp [hmt, hm]
        · by_cases e : x = v
          · subst e
            cases m <;> simp [hx, hmt]
          · simp [hx, e]
  obtain ⟨r, r1, r2⟩ := key (o.iter 1 (w.heap.mem (w.obj i).nodes)) _ _ (fun v hv => by rwa [o.mem, hmem] at hv) n2 n1
  refine ⟨r, r1, ?_⟩
  rw [Good, ofMG_update]
  refine Eq.mp ?_ r2
  congr 2
  simp only [DG.ofMG, MG.empty, o.mem, hmem, DG.mk.injEq, true_and]
  refine ⟨hp.symm, ?_⟩
  funext x m
  by_cases hx : x ∈ (V i).nodes
  · by_cases hm : m ∈ (V i).types
    · simp [hx, hm]
    · have : m ∉ [Mark.tail, .arrow] := hp ▸ hm
      simp only [hm, this, and_false, if_false]
  · simp [hx]

/-- The graph `i` has the value `G` in the memory `h`, the others are as in `V`. -/
def Sim (w : GWorld ι α) (V : ι → MG α) (i : ι) (G : MG α) (h : Heap α) : Prop := Good ⟨h, w.obj⟩ (Function.update V i G)

theorem Sim.start {w : GWorld ι α} {V : ι → MG α} (h : Good w V) (i : ι) : Sim w V i (V i) w.heap := by
  rw [Sim, Function.update_eq_self]
  exact h

variable {w : GWorld ι α} {V : ι → MG α} {i : ι} {G : MG α} {h : Heap α}

theorem Sim.modify (hs : Sim w V i G h) {v : α} {m : Mark} (hv : v ∈ G.nodes) (hm : m ∈ G.types) (f : Finset α → Finset α) :
    ∃ h', (w.obj i).modify v m f h = .ok h' ∧ Sim w V i (G.upd v m f) h' := by
  rw [Sim, Good, ofMG_update] at hs
  obtain ⟨h', h1, h2⟩ := hs.modify (i := i) (v := v) (m := m) (S := G.g v m) (by
    rw [Function.update_self]; exact DG.ofMG_mem hv hm) f
  refine ⟨h', h1, ?_⟩
  rw [Sim, Good, ofMG_update]
  rw [Function.update_self, Function.update_idem, DG.put_ofMG hv hm] at h2
  exact h2

/-- In-place changes one after the other. -/
theorem Sim.fold {β : Type} {f : Heap α → β → Py (Heap α)} {g : MG α → β → MG α} (hg : ∀ G x, (g G x).nodes = G.nodes ∧ (g G x).types = G.types)
    {N : Finset α} {T : List Mark} : ∀ (l : List β), (∀ x ∈ l, ∀ G h, G.nodes = N → G.types = T → Sim w V i G h → ∃ h', f h x = .ok h' ∧ Sim w V i (g G x) h') →
    ∀ {G h}, G.nodes = N → G.types = T → Sim w V i G h → ∃ h', l.foldlM f h = .ok h' ∧ Sim w V i (l.foldl g G) h'
  | [], _, G, h, _, _, hs => ⟨h, rfl, hs⟩
  | x :: l, hf, G, h, hN, hT, hs => by
    obtain ⟨h1, a1, a2⟩ := hf x (by simp) G h hN hT hs
    obtain ⟨h2, b1, b2⟩ := Sim.fold hg l (fun y hy => hf y (by simp [hy])) ((hg G x).1.trans hN) ((hg G x).2.trans hT) a2
    exact ⟨h2, (foldlM_cons_ok a1).trans b1, b2⟩

theorem Sim.orient (hs : Sim w V i G h) (hp : G.IsPdag) {s t : α} (hs' : s ∈ G.nodes) (ht : t ∈ G.nodes) :
    ∃ h', (w.obj i).orientEdge s t h = .ok h' ∧ Sim w V i (G.orientEdge s t) h' := by
  have m1 : Mark.tail ∈ G.types := by rw [hp]; simp
  have m2 : Mark.arrow ∈ G.types := by rw [hp]; simp
  obtain ⟨h1, a1, a2⟩ := hs.modify ht m2 (insert s)
  obtain ⟨h2, b1, b2⟩ := a2.modify ht m1 (fun x => x.erase s)
  obtain ⟨h3, c1, c2⟩ := b2.modify hs' m1 (fun x => x.erase t)
  exact ⟨h3, by rw [HGraph.orientEdge, py_bind a1, py_bind b1, c1], c2⟩

theorem Sim.deleteDirected (hs : Sim w V i G h) (hp : G.IsPdag) (s : α) {t : α} (ht : t ∈ G.nodes) :
    ∃ h', (w.obj i).deleteDirectedEdge s t h = .ok h' ∧ Sim w V i (G.deleteDirectedEdge s t) h' :=
  hs.modify ht (by rw [hp]; simp) _

theorem Sim.deleteUndirected (hs : Sim w V i G h) (hp : G.IsPdag) {s t : α} (hs' : s ∈ G.nodes) (ht : t ∈ G.nodes) :
    ∃ h', (w.obj i).deleteUndirectedEdge s t h = .ok h' ∧ Sim w V i (G.deleteUndirectedEdge s t) h' := by
  have m1 : Mark.tail ∈ G.types := by rw [hp]; simp
  obtain ⟨h1, a1, a2⟩ := hs.modify hs' m1 (fun x => x.erase t)
  obtain ⟨h2, b1, b2⟩ := a2.modify ht m1 (fun x => x.erase s)
  exact ⟨h2, by rw [HGraph.deleteUndirectedEdge, py_bind a1, b1], b2⟩

theorem Sim.pdagDelete (hs : Sim w V i G h) (hp : G.IsPdag) {s t : α} (hs' : s ∈ G.nodes) (ht : t ∈ G.nodes) :
    ∃ h', (w.obj i).pdagDeleteEdge s t h = .ok h' ∧ Sim w V i (G.pdagDeleteEdge s t) h' := by
  obtain ⟨h1, a1, a2⟩ := hs.deleteDirected hp s ht
  obtain ⟨h2, b1, b2⟩ := a2.deleteDirected hp t hs'
  obtain ⟨h3, c1, c2⟩ := b2.deleteUndirected hp hs' ht
  exact ⟨h3, by rw [HGraph.pdagDeleteEdge, py_bind a1, py_bind b1, c1], c2⟩

theorem Sim.delete (hs : Sim w V i G h) {s t : α} (hs' : s ∈ G.nodes) (ht : t ∈ G.nodes) (hty : (w.obj i).types = G.types) :
    ∃ h', (w.obj i).deleteEdge s t h = .ok h' ∧ Sim w V i (G.deleteEdge s t) h' := by
  rw [HGraph.deleteEdge, MG.deleteEdge, hty]
  refine Sim.fold (g := fun G m => (G.upd s m (fun S => S.erase t)).upd t m (fun S => S.erase s)) (fun _ _ => ⟨rfl, rfl⟩)
    (N := G.nodes) (T := G.types) G.types (fun m hm G' h hN hT hs => ?_) rfl rfl hs
  obtain ⟨h1, a1, a2⟩ := hs.modify (hN ▸ hs') (hT ▸ hm) (fun x => x.erase t)
  obtain ⟨h2, b1, b2⟩ := a2.modify (hN ▸ ht) (hT ▸ hm) (fun x => x.erase s)
  exact ⟨h2, by rw [py_bind a1, b1], b2⟩

theorem Sim.replaceMark (hs : Sim w V i G h) {s t : α} (ht : t ∈ G.nodes) (hty : (w.obj i).types = G.types) (m : Mark) :
    (∃ e, (w.obj i).replaceEdgeMark s t m h = .error e ∧ G.replaceEdgeMark s t m = .error e) ∨
      ∃ h' G', (w.obj i).replaceEdgeMark s t m h = .ok h' ∧ G.replaceEdgeMark s t m = .ok G' ∧ Sim w V i G' h' := by
  by_cases hm : m ∈ G.types
  · refine Or.inr ?_
    obtain ⟨h1, a1, a2⟩ := Sim.fold (g := fun G m' => G.upd t m' (fun x => x.erase s)) (fun _ _ => ⟨rfl, rfl⟩)
      (f := fun h m' => (w.obj i).modify t m' (fun x => x.erase s) h)
      (N := G.nodes) (T := G.types) G.types (fun m' hm' G' h hN hT hs => hs.modify (hN ▸ ht) (hT ▸ hm') _) rfl rfl hs
    have hk : ∀ (l : List Mark) (G : MG α), (l.foldl (fun G m' => G.upd t m' (fun x => x.erase s)) G).nodes = G.nodes ∧
        (l.foldl (fun G m' => G.upd t m' (fun x => x.erase s)) G).types = G.types := by
      intro l
      induction l with
      | nil => exact fun G => ⟨rfl, rfl⟩
      | cons x l ih => exact fun G => ih _
    obtain ⟨h2, b1, b2⟩ := a2.modify (v := t) (m := m) (by rw [(hk _ _).1]; exact ht) (by rw [(hk _ _).2]; exact hm) (insert s)
    refine ⟨h2, _, ?_, by rw [MG.replaceEdgeMark, if_pos hm], b2⟩
    rw [HGraph.replaceEdgeMark, if_neg (by rw [hty]; simpa using hm), hty]
    exact (py_bind a1 _).trans b1
  · refine Or.inl ⟨.assertionError, ?_, by rw [MG.replaceEdgeMark, if_neg hm]⟩
    rw [HGraph.replaceEdgeMark, if_pos (by rw [hty]; exact hm)]
    rfl

theorem Sim.read (hs : Sim w V i G h) {v : α} {m : Mark} (hv : v ∈ G.nodes) (hm : m ∈ G.types) : (w.obj i).read h v m = .ok (G.g v m) := by
  have := read_ext (i := i) hs (Ext.refl h) (v := v) (m := m) (by simpa using hv) (by simpa using hm)
  simpa using this

theorem Sim.isConnected (hs : Sim w V i G h) {s t : α} (hs' : s ∈ G.nodes) (ht : t ∈ G.nodes) (hty : (w.obj i).types = G.types) :
    (w.obj i).isConnected s t h = G.isConnected s t := by
  have key : ∀ (a b : α), b ∈ G.nodes → ∀ l : List Mark, (∀ m ∈ l, m ∈ G.types) →
      forAny (fun m => do return decide (a ∈ (← (w.obj i).read h b m))) l = .ok (l.any (fun m => a ∈ G.g b m)) := by
    intro a b hb l
    induction l with
    | nil => exact fun _ => rfl
    | cons m l ih =>
      intro hl
      rw [forAny, py_bind ((py_bind (hs.read hb (hl m (by simp))) _).trans rfl : (do
        return decide (a ∈ (← (w.obj i).read h b m))) = Except.ok (decide (a ∈ G.g b m)))]
      by_cases ha : a ∈ G.g b m
      · simp [ha]
        rfl
      · simp only [ha, decide_false, Bool.false_eq_true, if_false, List.any_cons, Bool.false_or]
        exact ih (fun m' h' => hl m' (by simp [h']))
  rw [HGraph.isConnected, MG.isConnected, hty]
  by_cases e : s = t
  · rw [if_pos e, if_pos e]
    rfl
  · rw [if_neg e, if_neg e]
    refine (py_bind (key s t ht _ (fun _ h => h)) _).trans ?_
    cases h1 : G.types.any (fun m => s ∈ G.g t m)
    · simp only [Bool.false_eq_true, if_false, Bool.false_or]
      exact key t s hs' _ (fun _ h => h)
    · rfl

theorem Sim.addEdge (hs : Sim w V i G h) {s t : α} (hs' : s ∈ G.nodes) (ht : t ∈ G.nodes) (hty : (w.obj i).types = G.types) (ms mt : Mark) :
    (∃ e, (w.obj i).addEdge s t ms mt h = .error e ∧ G.addEdge s t ms mt = .error e) ∨
      ∃ h' G', (w.obj i).addEdge s t ms mt h = .ok h' ∧ G.addEdge s t ms mt = .ok G' ∧ Sim w V i G' h' := by
  rw [HGraph.addEdge, MG.addEdge, hs.isConnected hs' ht hty, hty]
  cases hc : G.isConnected s t with
  | error e => exact Or.inl ⟨e, rfl, rfl⟩
  | ok b =>
    cases b with
    | true => exact Or.inl ⟨_, rfl, rfl⟩
    | false =>
      by_cases hm : ms ∈ G.types ∧ mt ∈ G.types
      · obtain ⟨h1, a1, a2⟩ := hs.modify hs' hm.1 (insert t)
        obtain ⟨h2, b1, b2⟩ := a2.modify (v := t) ht hm.2 (insert s)
        refine Or.inr ⟨h2, _, ?_, ?_, b2⟩
        · refine (py_bind (rfl : (Except.ok false : Py Bool) = .ok false) _).trans ?_
          simp only [Bool.false_eq_true, if_false]
          rw [if_neg (by simpa using hm)]
          exact (py_bind a1 _).trans b1
        · refine (py_bind (rfl : (Except.ok false : Py Bool) = .ok false) _).trans ?_
          simp only [Bool.false_eq_true, if_false]
          rw [if_pos hm]
          rfl
      · refine Or.inl ⟨.assertionError, ?_, ?_⟩
        · refine (py_bind (rfl : (Except.ok false : Py Bool) = .ok false) _).trans ?_
          simp only [Bool.false_eq_true, if_false]
          rw [if_pos hm]
          rfl
        · refine (py_bind (rfl : (Except.ok false : Py Bool) = .ok false) _).trans ?_
          simp only [Bool.false_eq_true, if_false]
          rw [if_neg hm]
          rfl

theorem Sim.addEdges (o : SetOrder α) (hs : Sim w V i G h) (hp : G.IsPdag) {ps : Finset α} {t : α} (hps : ps ⊆ G.nodes)
    (ht : t ∈ G.nodes) (m : Mark) :
    (∃ e, (w.obj i).addEdges o ps t m h = .error e ∧ G.pdagAddEdges ps t m = .error e) ∨
      ∃ h' G', (w.obj i).addEdges o ps t m h = .ok h' ∧ G.pdagAddEdges ps t m = .ok G' ∧ Sim w V i G' h' := by
  rw [HGraph.addEdges, MG.pdagAddEdges]
  have m1 : Mark.tail ∈ G.types := by rw [hp]; simp
  by_cases hm : m ≠ .tail ∧ m ≠ .arrow
  · rw [if_pos hm, if_pos hm]
    exact Or.inl ⟨_, rfl, rfl⟩
  · rw [if_neg hm, if_neg hm]
    have hmt : m ∈ G.types := by
      rw [hp]
      by_contra hn
      simp only [List.mem_cons, List.not_mem_nil, or_false, not_or] at hn
      exact hm hn
    obtain ⟨h1, a1, a2⟩ := hs.modify ht hmt (fun s => s ∪ ps)
    refine Or.inr ?_
    by_cases e : m = .tail
    · subst e
      obtain ⟨h2, b1, b2⟩ := Sim.fold (g := fun G p => G.upd p .tail (insert t)) (fun _ _ => ⟨rfl, rfl⟩)
        (f := fun h p => (w.obj i).modify p .tail (insert t) h) (N := G.nodes) (T := G.types) (o.iter 0 ps)
        (fun p hp' G' h hN hT hs => hs.modify (hN ▸ hps ((o.mem _ _ _).mp hp')) (hT ▸ m1) _)
        (G := G.upd t .tail (fun s => s ∪ ps)) rfl rfl a2
      refine ⟨h2, _, ?_, rfl, ?_⟩
      · refine (py_bind a1 _).trans ?_
        rw [if_pos rfl]
        exact b1
      · refine Eq.mp ?_ b2
        congr 1
        have hk : ∀ (l : List α) (G : MG α), l.foldl (fun G p => G.upd p .tail (insert t)) G =
            { G with g := fun x m' => if m' = .tail ∧ x ∈ l then insert t (G.g x m') else G.g x m' } := by
          intro l
          induction l with
          | nil => intro G; simp
          | cons p l ih =>
            intro G
            rw [List.foldl_cons, ih]
            simp only [MG.upd, MG.mk.injEq, true_and]
            funext x m'
            by_cases em : m' = .tail
            · by_cases ex : x = p
              · subst ex
                by_cases hl : x ∈ l <;> simp [em, hl]
              · simp [em, ex]
            · simp [em]
        rw [hk]
        simp [o.mem]
    · refine ⟨h1, _, ?_, rfl, ?_⟩
      · refine (py_bind a1 _).trans ?_
        rw [if_neg e]
        rfl
      · rw [if_neg e]
        exact a2

end GHeap
end Verif
