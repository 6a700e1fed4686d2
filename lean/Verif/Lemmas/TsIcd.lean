import Verif.Lemmas.TsFill

/-!
# Lemmas about runs of TS-ICD (partial correctness)
-/

namespace Verif
open TsSpec

namespace TsIcd
variable {α : Type} [LinearOrder α] {sets : List (List α)}
open MG (Keep Weak)

theorem finalRules_keep (o : SetOrder α) {sep : SepSet α} {s t : Bool} {G H : MG α} (hG : G.Weak)
    (h : Fci.finalRules o sep s t G = .ok H) : Keep G H := by
  rw [Fci.finalRules] at h
  obtain ⟨G1, e1, e2⟩ := py_bind_ok h
  have k1 : Keep G G1 := by
    cases s with
    | false => cases e1; exact Keep.refl hG
    | true => exact MG.pagMaxOrient_keep o hG e1
  cases t with
  | false => cases e2; exact k1
  | true => exact k1.trans (MG.pagMaxOrient_keep o k1.weak e2)

omit [LinearOrder α] in
theorem _root_.Verif.TsSpec.Forward.keep {G H : MG α} (h : Forward sets G) (k : Keep G H) : Forward sets H :=
  fun a b hl hab => k.arrow a b (h a b hl ((k.adj a b).mp hab))

/-- What a successful filling does. -/
theorem fill_facts (hg : Grid sets) (o : SetOrder α) {G K : MG α} (hG : G.Weak)
    (hn : ∀ v, v ∈ G.nodes ↔ v ∈ sets.flatten) (h : fillHomology o sets G = .ok K) :
    K.Weak ∧ K.nodes = G.nodes ∧ (∀ a b, G.MAdj a b → K.MAdj a b) ∧ (∀ a b, G.MAdj a b → ∃ m, G.At a b m) ∧
      Stationary sets K ∧ (Forward sets G → Forward sets K) ∧
      (∀ a b, Oriented sets G a b → K.MAdj a b) ∧
      (∀ a b, K.MAdj a b → G.MAdj a b ∨ ∃ c d, G.MAdj c d ∧ Homologous sets c d a b) := by
  obtain ⟨f1, f2⟩ := fill_spec hg o hG hn
  have hboth : ∀ a b, G.MAdj a b → ∃ m, G.At a b m := by
    intro a b hab
    by_contra hno
    push Not at hno
    obtain ⟨e, he⟩ := f1 ⟨a, b, hab, hno⟩
    rw [he] at h
    cases h
  obtain ⟨K', e, w, n, a1, a2⟩ := f2 hboth
  rw [h] at e
  cases e
  have hkeep : ∀ a b m, G.At a b m → ∃ m', K.At a b m' := by
    intro a b m hm
    by_cases ho : Oriented sets G a b
    · obtain ⟨p, c, m', -, -, -, q4⟩ := a1 a b ho
      obtain ⟨ha, hb⟩ := hG.mem _ _ _ hm
      exact ⟨m', (q4 a b (Homologous.refl' ((hn a).mp ha) ((hn b).mp hb)) m').mpr rfl⟩
    · exact ⟨m, (a2 a b ho m).mpr hm⟩
  have hself : ∀ a b, Oriented sets G a b → Homologous sets a b a b := by
    rintro a b ⟨p, c, m, -, -, q⟩
    exact q.symm.trans hg q
  refine ⟨w, n, ?_, hboth, ?_, ?_, ?_, ?_⟩
  · rintro a b (⟨m, hm⟩ | ⟨m, hm⟩)
    · exact Or.inl (hkeep _ _ _ hm)
    · exact Or.inr (hkeep _ _ _ hm)
  · intro a b c d m hh hm hmc
    by_cases ho : Oriented sets G a b
    · obtain ⟨p, q, m', q1, q2, q3, q4⟩ := a1 a b ho
      have := (q4 a b (hself a b ho) m).mp hm
      subst this
      exact (q4 c d hh m).mpr rfl
    · exact absurd ⟨a, b, m, (a2 a b ho m).mp hm, hmc, hh.trans hg hh.symm⟩ ho
  · intro hf a b hl hab
    have hoab : ∀ a b, Later sets b a → Oriented sets G a b → K.At a b .arrow := by
      intro a b hl ho
      obtain ⟨p, q, m, q1, q2, q3, q4⟩ := a1 a b ho
      have := hf p q ((q3.swap.later hg).mpr hl) (Or.inl ⟨m, q1⟩)
      rw [hG.one _ _ _ _ q1 this] at q4
      exact (q4 a b (hself a b ho) _).mpr rfl
    by_cases ho : Oriented sets G a b
    · exact hoab a b hl ho
    · by_cases ho' : Oriented sets G b a
      · obtain ⟨p, q, m, q1, q2, q3⟩ := ho'
        have := hf q p ((q3.later hg).mpr hl) (Or.inr ⟨m, q1⟩)
        exact absurd ⟨q, p, .arrow, this, by decide, q3.swap⟩ ho
      · have hab' : G.MAdj a b := by
          rcases hab with ⟨m, hm⟩ | ⟨m, hm⟩
          · exact Or.inl ⟨m, (a2 a b ho m).mp hm⟩
          · exact Or.inr ⟨m, (a2 b a ho' m).mp hm⟩
        exact (a2 a b ho _).mpr (hf a b hl hab')
  · intro a b ho
    obtain ⟨p, q, m, q1, q2, q3, q4⟩ := a1 a b ho
    exact Or.inl ⟨m, (q4 a b (hself a b ho) m).mpr rfl⟩
  · intro a b hab
    by_cases ho : Oriented sets G a b
    · obtain ⟨p, q, m, q1, q2, q3⟩ := ho
      exact Or.inr ⟨p, q, Or.inl ⟨m, q1⟩, q3⟩
    · by_cases ho' : Oriented sets G b a
      · obtain ⟨p, q, m, q1, q2, q3⟩ := ho'
        exact Or.inr ⟨q, p, Or.inr ⟨m, q1⟩, q3.swap⟩
      · left
        rcases hab with ⟨m, hm⟩ | ⟨m, hm⟩
        · exact Or.inl ⟨m, (a2 a b ho m).mp hm⟩
        · exact Or.inr ⟨m, (a2 b a ho' m).mp hm⟩

/-- The fixed orientations have an arrowhead at the later node. -/
def FixedForward (sets : List (List α)) (fixed : Dict (α × α) Mark) : Prop :=
  ∀ a b m, Later sets b a → Dict.get? fixed (a, b) = some m → m = .arrow

/-- What a successful orientation step does. -/
theorem orientGraph_facts (o : SetOrder α) {cfg : TsCfg α} (hg : Grid cfg.sets) {sep : SepSet α} {c : Bool} {G K : MG α}
    (hG : G.Weak) (hn : ∀ v, v ∈ G.nodes ↔ v ∈ cfg.sets.flatten) (h : orientGraph o cfg sep c G = .ok K) :
    K.Weak ∧ K.nodes = G.nodes ∧ (∀ a b, G.MAdj a b → K.MAdj a b) ∧ Stationary cfg.sets K ∧
      (FixedForward cfg.sets cfg.fixed → Forward cfg.sets K ∧
        ∀ a b a' b', Later cfg.sets b' a' → G.MAdj a' b' → Homologous cfg.sets a' b' a b → K.MAdj a b) := by
  rw [orientGraph] at h
  obtain ⟨G1, e1, h⟩ := py_bind_ok h
  obtain ⟨G2, e2, h⟩ := py_bind_ok h
  obtain ⟨G3, e3, h⟩ := py_bind_ok h
  obtain ⟨G4, e4, h⟩ := py_bind_ok h
  obtain ⟨G5, e5, h⟩ := py_bind_ok h
  obtain ⟨G6, e6, h⟩ := py_bind_ok h
  obtain ⟨w1, n1, a1, -⟩ := MG.resetCircle_spec o hG e1
  obtain ⟨w2, n2, a2, b2, c2⟩ := setFixed_spec o w1 e2
  have k3 := MG.pagVStructures_keep o w2 e3
  have n3 : G3.nodes = G.nodes := k3.nodes.trans (n2.trans n1)
  obtain ⟨w4, n4, a4, -, -, f4, -⟩ := fill_facts hg o k3.weak (fun v => by rw [n3]; exact hn v) e4
  have k5 := MG.pagMaxOrient_keep o w4 e5
  have k6 : Keep G5 G6 := by
    cases c with
    | false => cases e6; exact Keep.refl k5.weak
    | true => exact finalRules_keep o k5.weak e6
  have n6 : G6.nodes = G.nodes := k6.nodes.trans (k5.nodes.trans (n4.trans n3))
  obtain ⟨w7, n7, a7, -, s7, f7, o7, -⟩ := fill_facts hg o k6.weak (fun v => by rw [n6]; exact hn v) h
  have hadj6 : ∀ a b, G.MAdj a b → G6.MAdj a b := by
    intro a b hab
    rw [k6.adj, k5.adj]
    exact a4 _ _ ((k3.adj _ _).mpr ((a2 _ _).mpr ((a1 _ _).mpr hab)))
  refine ⟨w7, n7.trans n6, fun a b hab => a7 _ _ (hadj6 a b hab), s7, ?_⟩
  intro hfix
  have hf2 : Forward cfg.sets G2 := by
    intro a b hl hab
    obtain ⟨m, hm⟩ := c2 a b ((a2 a b).mp hab)
    have := hfix a b m hl hm
    subst this
    exact (b2 _ _ _).mpr ⟨(a2 a b).mp hab, hm⟩
  have hf6 : Forward cfg.sets G6 := ((f4 (hf2.keep k3)).keep k5).keep k6
  refine ⟨f7 hf6, ?_⟩
  intro a b a' b' hl hab hh
  exact o7 a b ⟨a', b', .arrow, hf6 _ _ hl (hadj6 _ _ hab), by decide, hh⟩

/-! ### removal of edges -/

/-- The state: marks only between nodes, all nodes of the window, and every edge of `G0` that is missing has a justified
separating set. -/
structure Acc (ci : CITest α) (cfg : TsCfg α) (G0 : MG α) (st : IcdState α) : Prop where
  weak : st.graph.Weak
  nodes : ∀ v, v ∈ st.graph.nodes ↔ v ∈ cfg.sets.flatten
  sep : ∀ a b, G0.MAdj a b → ¬ st.graph.MAdj a b →
    ∃ S, st.sep.get a b = .ok S ∧ Justified ci cfg.sets cfg.homology st.calls a b S
  past : cfg.homology = false → ∀ a b t i s j, Cell cfg.sets (t + 1) i a → Cell cfg.sets (s + 1) j b → G0.MAdj a b →
    st.graph.MAdj a b

variable {ci : CITest α} {cfg : TsCfg α} {G0 : MG α}

theorem _root_.Verif.TsSpec.Justified.mono {n n' : Nat} {h : Bool} {a b : α} {S : Finset α} (hn : n ≤ n')
    (hj : Justified ci sets h n a b S) : Justified ci sets h n' a b S := by
  obtain ⟨m, i, j, z, k, c, h1, h2⟩ := hj
  exact ⟨m, i, j, z, k, c, lt_of_lt_of_le h1 hn, h2⟩

theorem _root_.Verif.TsSpec.Justified.swap {n : Nat} {h : Bool} {a b : α} {S : Finset α}
    (hj : Justified ci sets h n a b S) : Justified ci sets h n b a S := by
  obtain ⟨m, i, j, z, k, c, h1, h2, h3, h4, h5⟩ := hj
  exact ⟨m, i, j, z, k, c, h1, h2, h3, h4.symm, h5⟩

theorem Acc.tick {st : IcdState α} (h : Acc ci cfg G0 st) : Acc ci cfg G0 { st with calls := st.calls + 1 } := by
  refine ⟨h.weak, h.nodes, ?_, h.past⟩
  intro a b h1 h2
  obtain ⟨S, h3, h4⟩ := h.sep a b h1 h2
  exact ⟨S, h3, h4.mono (Nat.le_succ _)⟩

theorem Acc.remove {st : IcdState α} (h : Acc ci cfg G0 st) {x y : α} {S : Finset α}
    (hj : Justified ci cfg.sets cfg.homology st.calls x y S) (hp : cfg.homology = false → (∃ v, Cell cfg.sets 0 v x))
    (hg : Grid cfg.sets) :
    Acc ci cfg G0 { st with graph := st.graph.deleteEdge x y, sep := st.sep.set x y S } := by
  obtain ⟨w, n, a⟩ := h.weak.delete x y
  refine ⟨w, fun v => by dsimp only; rw [n]; exact h.nodes v, ?_, ?_⟩
  · intro u v h1 h2
    dsimp only at h2 ⊢
    rw [SepSet.get_set]
    by_cases hc : (x = u ∧ y = v) ∨ (x = v ∧ y = u)
    · rw [if_pos hc]
      refine ⟨S, rfl, ?_⟩
      rcases hc with ⟨rfl, rfl⟩ | ⟨rfl, rfl⟩
      · exact hj
      · exact hj.swap
    · rw [if_neg hc]
      refine h.sep u v h1 (fun h3 => h2 ((a u v).mpr ⟨h3, ?_, ?_⟩))
      · rintro ⟨rfl, rfl⟩; exact hc (Or.inl ⟨rfl, rfl⟩)
      · rintro ⟨rfl, rfl⟩; exact hc (Or.inr ⟨rfl, rfl⟩)
  · intro hf u v t i s j hu hv h0
    dsimp only
    obtain ⟨w, hw⟩ := hp hf
    rw [a]
    refine ⟨h.past hf u v t i s j hu hv h0, ?_, ?_⟩
    · rintro ⟨rfl, rfl⟩
      exact absurd (hw.unique hg hu).1 (by omega)
    · rintro ⟨rfl, rfl⟩
      exact absurd (hw.unique hg hv).1 (by omega)

omit [LinearOrder α] in
theorem shift_zero {x : α} (h : x ∈ sets.flatten) : Shift sets 0 x x := by
  obtain ⟨t, i, hc⟩ := cell_of_mem h
  exact ⟨t, i, hc, hc⟩

theorem ciHomology_mem {n0 n1 : α} {z : List α} {l : List (α × α × List α)} (h : ciHomology sets n0 n1 z = .ok l) :
    ∀ x ∈ z, x ∈ sets.flatten := by
  rw [ciHomology] at h
  obtain ⟨t0, e0, h⟩ := py_bind_ok h
  split_ifs at h
  · cases h
  obtain ⟨t1, e1, h⟩ := py_bind_ok h
  obtain ⟨ts, e2, h⟩ := py_bind_ok h
  intro x hx
  rw [mapM_forall₂] at e2
  obtain ⟨n, hn, rfl⟩ := List.mem_iff_getElem.mp hx
  obtain ⟨i, hi⟩ := time_cell (e2.get (i := n) hn (e2.length_eq ▸ hn))
  exact hi.mem

theorem testHom_acc (hg : Grid cfg.sets) {st : IcdState α} (h : Acc ci cfg G0 st) {i j : α} {z : List α}
    (hi : ∃ v, Cell cfg.sets 0 v i) (hj : j ∈ cfg.sets.flatten)
    {r : IcdState α × Bool} (hr : testHom cfg ci st i j z = .ok r) : Acc ci cfg G0 r.1 := by
  obtain ⟨i0, hi0⟩ := hi
  obtain ⟨t1, i1, hj1⟩ := cell_of_mem hj
  rw [testHom] at hr
  split_ifs at hr with hci hh hz0
  · -- homology, empty conditioning set
    have hz0' : z = [] := List.length_eq_zero_iff.mp hz0
    subst hz0'
    obtain ⟨l, hl, e⟩ := py_bind_ok hr
    cases e
    obtain ⟨l', hl', hm⟩ := edgeHomology_spec hg hi0 hj1
    rw [hl] at hl'
    cases hl'
    have key : ∀ (l' : List (α × α)) (s : IcdState α), (∀ ab ∈ l', ab ∈ l) → Acc ci cfg G0 s → st.calls < s.calls →
        Acc ci cfg G0 (l'.foldl (fun (st : IcdState α) ab =>
          { st with graph := st.graph.deleteEdge ab.1 ab.2, sep := st.sep.set ab.1 ab.2 ([] : List α).toFinset }) s) := by
      intro l'
      induction l' with
      | nil => intro s _ hs _; exact hs
      | cons ab l' ih =>
        intro s hsub hs hlt
        rw [List.foldl_cons]
        refine ih _ (fun x hx => hsub x (List.mem_cons_of_mem _ hx)) ?_ hlt
        obtain ⟨k, hk, q1, q2⟩ := (hm ab.1 ab.2).mp (hsub ab (by simp))
        refine hs.remove ?_ (by rw [hh]; simp) hg
        exact ⟨st.calls, i, j, [], k, [], hlt, hci, ⟨i0, hi0⟩,
          Or.inl ⟨(Shift.iff hg hi0).mpr (by rwa [Nat.zero_add]), (Shift.iff hg hj1).mpr q2⟩, fun _ => List.Forall₂.nil,
          fun h => by rw [hh] at h; simp at h, rfl⟩
    refine key l _ (fun _ h => h) ?_ (Nat.lt_succ_self _)
    exact h.tick.remove ⟨st.calls, i, j, [], 0, [], Nat.lt_succ_self _, hci, ⟨i0, hi0⟩,
      Or.inl ⟨shift_zero hi0.mem, shift_zero hj⟩, fun _ => List.Forall₂.nil, fun _ => ⟨rfl, rfl⟩, rfl⟩ (fun _ => ⟨i0, hi0⟩) hg
  · obtain ⟨l, hl, e⟩ := py_bind_ok hr
    cases e
    have hz := ciHomology_mem hl
    obtain ⟨l', hl', hm⟩ := ciHomology_spec hg hi0 hj1 hz (fun h => hz0 (by rw [h]; rfl))
    rw [hl] at hl'
    cases hl'
    have key : ∀ (l' : List (α × α × List α)) (s : IcdState α), (∀ ab ∈ l', ab ∈ l) → Acc ci cfg G0 s → st.calls < s.calls →
        Acc ci cfg G0 (l'.foldl (fun (st : IcdState α) abc =>
          { st with graph := st.graph.deleteEdge abc.1 abc.2.1, sep := st.sep.set abc.1 abc.2.1 abc.2.2.toFinset }) s) := by
      intro l'
      induction l' with
      | nil => intro s _ hs _; exact hs
      | cons abc l' ih =>
        intro s hsub hs hlt
        rw [List.foldl_cons]
        refine ih _ (fun x hx => hsub x (List.mem_cons_of_mem _ hx)) ?_ hlt
        obtain ⟨k, hk, q1, q2, q3⟩ := (hm abc.1 abc.2.1 abc.2.2).mp (hsub abc (by simp))
        refine hs.remove ?_ (by rw [hh]; simp) hg
        exact ⟨st.calls, i, j, z, k, abc.2.2, hlt, hci, ⟨i0, hi0⟩,
          Or.inl ⟨(Shift.iff hg hi0).mpr (by rwa [Nat.zero_add]), (Shift.iff hg hj1).mpr q2⟩, fun _ => q3,
          fun h => by rw [hh] at h; simp at h, rfl⟩
    refine key l _ (fun _ h => h) ?_ (Nat.lt_succ_self _)
    exact h.tick.remove ⟨st.calls, i, j, z, 0, z, Nat.lt_succ_self _, hci, ⟨i0, hi0⟩,
      Or.inl ⟨shift_zero hi0.mem, shift_zero hj⟩, fun _ => List.forall₂_same.mpr (fun x hx => shift_zero (hz x hx)),
      fun _ => ⟨rfl, rfl⟩, rfl⟩ (fun _ => ⟨i0, hi0⟩) hg
  · cases hr
    exact h.tick.remove ⟨st.calls, i, j, z, 0, z, Nat.lt_succ_self _, hci, ⟨i0, hi0⟩,
      Or.inl ⟨shift_zero hi0.mem, shift_zero hj⟩, fun h => absurd h hh, fun _ => ⟨rfl, rfl⟩, rfl⟩
      (fun _ => ⟨i0, hi0⟩) hg
  · cases hr
    exact h.tick

theorem testList_acc (hg : Grid cfg.sets) {i j : α} (hi : ∃ v, Cell cfg.sets 0 v i) (hj : j ∈ cfg.sets.flatten) :
    ∀ (zs : List (List α)) {st st' : IcdState α}, Acc ci cfg G0 st →
      testList cfg ci i j zs st = .ok st' → Acc ci cfg G0 st' := by
  intro zs
  induction zs with
  | nil => intro st st' h e; cases e; exact h
  | cons z zs ih =>
    intro st st' h e
    rw [testList] at e
    obtain ⟨r, e1, e2⟩ := py_bind_ok e
    have ha := testHom_acc hg h hi hj e1
    obtain ⟨s, b⟩ := r
    dsimp only at e2 ha
    split_ifs at e2
    · cases e2; exact ha
    · exact ih ha e2

theorem orient_acc (o : SetOrder α) (hg : Grid cfg.sets) {st : IcdState α} (h : Acc ci cfg G0 st) {sep : SepSet α} {c : Bool} {K : MG α}
    (he : orientGraph o cfg sep c st.graph = .ok K) : Acc ci cfg G0 { st with graph := K } := by
  obtain ⟨w, n, a, -⟩ := orientGraph_facts o hg h.weak h.nodes he
  refine ⟨w, fun v => by dsimp only; rw [n]; exact h.nodes v, ?_, ?_⟩
  · intro u v h1 h2
    exact h.sep u v h1 (fun h3 => h2 (a u v h3))
  · intro hf u v t i s j hu hv h0
    exact a _ _ (h.past hf u v t i s j hu hv h0)

omit [LinearOrder α] in
theorem cell_zero {v : α} (h : v ∈ sets.headD []) : ∃ i, Cell sets 0 i v := by
  cases sets with
  | nil => cases h
  | cons l sets =>
    obtain ⟨i, hi⟩ := List.mem_iff_getElem?.mp h
    exact ⟨i, l, rfl, hi⟩

omit [LinearOrder α] in
theorem crossLag_mem {ij : α × α} (h : ij ∈ crossLag sets) : (∃ v, Cell sets 0 v ij.1) ∧ ij.2 ∈ sets.flatten := by
  obtain ⟨i, j⟩ := ij
  obtain ⟨h1, h2⟩ := List.pair_mem_product.mp h
  refine ⟨cell_zero h1, ?_⟩
  cases sets with
  | nil => cases h1
  | cons l sets => rw [List.flatten_cons]; exact List.mem_append_right _ h2

omit [LinearOrder α] in
theorem contemporaneous_mem {ij : α × α} (h : ij ∈ contemporaneous sets) :
    (∃ v, Cell sets 0 v ij.1) ∧ ij.2 ∈ sets.flatten := by
  obtain ⟨v, hv⟩ := cell_zero (mem_pairs_right h)
  exact ⟨cell_zero (mem_pairs_left h), hv.mem⟩

theorem step0Fold_acc (hg : Grid cfg.sets) {l : List (α × α)}
    (hl : ∀ ij ∈ l, (∃ v, Cell cfg.sets 0 v ij.1) ∧ ij.2 ∈ cfg.sets.flatten) {st st' : IcdState α} (h : Acc ci cfg G0 st)
    (e : l.foldlM (fun st ij => do return (← testHom cfg ci st ij.1 ij.2 []).1) st = .ok st') : Acc ci cfg G0 st' := by
  refine foldlM_keep (Acc ci cfg G0) l st st' ?_ h e
  intro s ij s' hij hs he
  obtain ⟨r, e1, e2⟩ := py_bind_ok he
  cases e2
  exact testHom_acc hg hs (hl ij hij).1 (hl ij hij).2 e1

/-- A graph that is the result of an orientation step from an accounted state. -/
def Final (ci : CITest α) (cfg : TsCfg α) (o : SetOrder α) (G0 : MG α) (st : IcdState α) : Prop :=
  ∃ s : IcdState α, Acc ci cfg G0 s ∧ ∃ c, orientGraph o cfg s.sep c s.graph = .ok st.graph

theorem baseStep0_acc (o : SetOrder α) (hg : Grid cfg.sets) {st st' : IcdState α} (h : Acc ci cfg G0 st)
    (e : baseStep0 o cfg ci st = .ok st') : Acc ci cfg G0 st' ∧ Final ci cfg o G0 st' := by
  obtain ⟨s1, e1, e⟩ := py_bind_ok e
  obtain ⟨s2, e2, e⟩ := py_bind_ok e
  obtain ⟨G, e3, e⟩ := py_bind_ok e
  cases e
  have a1 := step0Fold_acc hg (fun _ => crossLag_mem) h e1
  have a2 := step0Fold_acc hg (fun _ => contemporaneous_mem) a1 e2
  exact ⟨orient_acc o hg a2 e3, s2, a2, _, e3⟩

theorem step1Edges_acc (o : SetOrder α) (hg : Grid cfg.sets) {l : List (α × α)}
    (hl : ∀ ij ∈ l, (∃ v, Cell cfg.sets 0 v ij.1) ∧ ij.2 ∈ cfg.sets.flatten) {r r' : IcdState α × Bool}
    (h : Acc ci cfg G0 r.1) (e : step1Edges o cfg ci l r = .ok r') : Acc ci cfg G0 r'.1 := by
  refine foldlM_keep (fun r : IcdState α × Bool => Acc ci cfg G0 r.1) l r r' ?_ h e
  intro s ij s' hij hs he
  obtain ⟨b, e1, e2⟩ := py_bind_ok he
  cases b with
  | false => cases e2; exact hs
  | true =>
    obtain ⟨t, e3, e4⟩ := py_bind_ok e2
    cases e4
    exact testList_acc hg (hl ij hij).1 (hl ij hij).2 _ hs e3

theorem incrementalEdges_acc (o : SetOrder α) (hg : Grid cfg.sets) {l : List (α × α)}
    (hl : ∀ ij ∈ l, (∃ v, Cell cfg.sets 0 v ij.1) ∧ ij.2 ∈ cfg.sets.flatten) {st : IcdState α} {r : IcdState α × Bool}
    (h : Acc ci cfg G0 st) (e : incrementalEdges o cfg ci l st = .ok r) : Acc ci cfg G0 r.1 := by
  refine foldlM_keep (fun r : IcdState α × Bool => Acc ci cfg G0 r.1) l _ r ?_ h e
  intro s ij s' hij hs he
  obtain ⟨b, e1, e2⟩ := py_bind_ok he
  cases b with
  | false => cases e2; exact hs
  | true =>
    obtain ⟨c, e5, e2⟩ := py_bind_ok e2
    obtain ⟨t, e3, e4⟩ := py_bind_ok e2
    cases e4
    exact testList_acc hg (hl ij hij).1 (hl ij hij).2 _ hs e3

theorem incrementalStep_acc (o : SetOrder α) (hg : Grid cfg.sets) {st : IcdState α} {r : IcdState α × Bool} (h : Acc ci cfg G0 st)
    (e : incrementalStep o cfg ci st = .ok r) : Acc ci cfg G0 r.1 ∧ Final ci cfg o G0 r.1 := by
  rw [incrementalStep] at e
  obtain ⟨s1, e1, e⟩ := py_bind_ok e
  obtain ⟨s2, e2, e⟩ := py_bind_ok e
  obtain ⟨G, e3, e⟩ := py_bind_ok e
  cases e
  have a1 := incrementalEdges_acc o hg (fun _ => crossLag_mem) h e1
  have a2 := incrementalEdges_acc o hg (fun _ => contemporaneous_mem) a1 e2
  exact ⟨orient_acc o hg a2 e3, s2.1, a2, _, e3⟩

theorem step_acc (o : SetOrder α) (hg : Grid cfg.sets) {st : IcdState α} {r : IcdState α × Bool} (h : Acc ci cfg G0 st)
    (e : step o cfg ci st = .ok r) : Acc ci cfg G0 r.1 ∧ Final ci cfg o G0 r.1 := by
  rw [step] at e
  split_ifs at e
  · obtain ⟨s, e1, e2⟩ := py_bind_ok e
    cases e2
    exact baseStep0_acc o hg h e1
  · rw [baseStep1] at e
    obtain ⟨s1, e1, e⟩ := py_bind_ok e
    obtain ⟨s2, e2, e⟩ := py_bind_ok e
    obtain ⟨G, e3, e⟩ := py_bind_ok e
    cases e
    have a1 := step1Edges_acc o hg (fun _ => crossLag_mem) (r := (st, true)) h e1
    have a2 := step1Edges_acc o hg (fun _ => contemporaneous_mem) a1 e2
    exact ⟨orient_acc o hg a2 e3, s2.1, a2, _, e3⟩
  · rw [preCalc] at e
    obtain ⟨s0, e0, e⟩ := py_bind_ok e
    obtain ⟨d, e1, e2⟩ := py_bind_ok e0
    cases e2
    exact incrementalStep_acc o hg (st := { st with cond := d }) ⟨h.weak, h.nodes, h.sep, h.past⟩ e
  · exact incrementalStep_acc o hg h e

theorem loop_acc (o : SetOrder α) (hg : Grid cfg.sets) : ∀ (n : Nat) {st st' : IcdState α}, Acc ci cfg G0 st →
    loop o cfg ci n st = .ok st' → Acc ci cfg G0 st' ∧ Final ci cfg o G0 st' := by
  intro n
  induction n with
  | zero => intro st st' _ e; cases e
  | succ n ih =>
    intro st st' h e
    rw [loop] at e
    obtain ⟨r, e1, e⟩ := py_bind_ok e
    rw [iteration] at e1
    split_ifs at e1
    obtain ⟨r1, e2, e3⟩ := py_bind_ok e1
    cases e3
    obtain ⟨a1, a2⟩ := step_acc o hg h e2
    have a3 : Acc ci cfg G0 { r1.1 with done := r1.2, size := r1.1.size + 1 } := ⟨a1.weak, a1.nodes, a1.sep, a1.past⟩
    have a4 : Final ci cfg o G0 { r1.1 with done := r1.2, size := r1.1.size + 1 } := a2
    dsimp only at e
    split_ifs at e
    · cases e; exact ⟨a3, a4⟩
    · exact ih a3 e

/-! ### the constructor -/

theorem foldlM_flatMap {β γ σ : Type} (f : σ → γ → Py σ) (g : β → List γ) : ∀ (l : List β) (s : σ),
    l.foldlM (fun s x => (g x).foldlM f s) s = (l.flatMap g).foldlM f s := by
  intro l
  induction l with
  | nil => intro s; rfl
  | cons x l ih =>
    intro s
    rw [List.foldlM_cons, List.flatMap_cons, List.foldlM_append]
    congr 1
    funext s'
    exact ih s'

omit [LinearOrder α] in
theorem mem_getD {t : Nat} {v : α} : v ∈ sets.getD t [] ↔ ∃ i, Cell sets t i v := by
  rw [List.getD_eq_getElem?_getD]
  constructor
  · intro h
    cases hs : sets[t]? with
    | none => rw [hs] at h; simp at h
    | some l =>
      rw [hs] at h
      obtain ⟨i, hi⟩ := List.mem_iff_getElem?.mp h
      exact ⟨i, l, hs, hi⟩
  · rintro ⟨i, l, h1, h2⟩
    rw [h1]
    exact List.mem_of_getElem? h2

theorem complete_weak (N : Finset α) : (MG.complete N MG.pagTypes .circle).Weak :=
  (MG.complete_proper (by decide)).weak rfl

open Classical in
/-- The default initial graph: complete, arrowheads at the later node of edges between different times. -/
theorem defaultPag_spec (hg : Grid sets) : ∃ P, defaultPag sets = .ok P ∧ P.Weak ∧ P.nodes = nodesOf sets ∧
    ∀ a b m, P.At a b m ↔ a ∈ sets.flatten ∧ b ∈ sets.flatten ∧ a ≠ b ∧
      (if Later sets b a then m = .arrow else m = .circle) := by
  have e : defaultPag sets = (((List.range (sets.length - 1)).flatMap (fun f => (List.range' (f + 1) (sets.length - (f + 1))).flatMap
      (fun p => (sets.getD p []).product (sets.getD f [])))).map Prod.swap).foldlM
      (fun (G : MG α) cp => G.replaceEdgeMark cp.2 cp.1 .arrow) (MG.complete (nodesOf sets) MG.pagTypes .circle) := by
    rw [List.foldlM_map, defaultPag, ← foldlM_flatMap]
    congr 1
    funext G f
    rw [← foldlM_flatMap]
    rfl
  have hmem : ∀ a b, (b, a) ∈ (((List.range (sets.length - 1)).flatMap (fun f => (List.range' (f + 1) (sets.length - (f + 1))).flatMap
      (fun p => (sets.getD p []).product (sets.getD f [])))).map Prod.swap) ↔ Later sets b a := by
    intro a b
    simp only [List.mem_map, List.mem_flatMap, List.mem_range, List.mem_range', Prod.exists, Prod.swap_prod_mk,
      Prod.mk.injEq, List.pair_mem_product, mem_getD]
    constructor
    · rintro ⟨p, f, ⟨tf, -, tp, ⟨k, -, rfl⟩, ⟨i, hi⟩, ⟨j, hj⟩⟩, rfl, rfl⟩
      exact ⟨tf, j, _, i, hj, hi, by omega⟩
    · rintro ⟨t, i, s, j, h1, h2, h3⟩
      have := h2.lt
      exact ⟨a, b, ⟨t, by omega, s, ⟨s - (t + 1), by omega, by omega⟩, ⟨j, h2⟩, ⟨i, h1⟩⟩, rfl, rfl⟩
  obtain ⟨K, k1, k2, k3, k4⟩ := batch_spec (m := .arrow) _ (MG.complete (nodesOf sets) MG.pagTypes .circle) (complete_weak _)
    (by
      rintro ⟨b, a⟩ hab
      obtain ⟨t, i, s, j, h1, h2, h3⟩ := (hmem a b).mp hab
      refine ⟨List.mem_toFinset.mpr h1.mem, List.mem_toFinset.mpr h2.mem, ?_⟩
      dsimp only
      rintro rfl
      exact absurd (h1.unique hg h2).1 (by omega))
  refine ⟨K, e.trans k1, k2, k3, fun a b m => ?_⟩
  rw [k4, MG.complete_at]
  by_cases hl : Later sets b a
  · rw [if_pos ((hmem a b).mpr hl), if_pos hl]
    obtain ⟨t, i, s, j, h1, h2, h3⟩ := hl
    refine ⟨fun h => ⟨h2.mem, h1.mem, ?_, h⟩, fun h => h.2.2.2⟩
    rintro rfl
    exact absurd (h1.unique hg h2).1 (by omega)
  · rw [if_neg (fun h => hl ((hmem a b).mp h)), if_neg hl]
    simp only [nodesOf, List.mem_toFinset]

/-- The copy of the initial graph has its marks. -/
theorem copyPag_spec (o : SetOrder α) {N : Finset α} {P G : MG α} (hP : P.Weak) (hn : P.nodes ⊆ N)
    (h : copyPag o N P = .ok G) : G.Weak ∧ G.nodes = N ∧ ∀ a b m, G.At a b m ↔ P.At a b m := by
  have key : ∀ (l : List (α × α)) (G K : MG α), G.Weak → G.nodes = N → (∀ a b m, G.At a b m → P.At a b m) →
      l.foldlM (fun (G : MG α) ij => do
        if ← P.isConnected ij.1 ij.2 then
          match P.getEdgeMark ij.2 ij.1, P.getEdgeMark ij.1 ij.2 with
          | some mi, some mj => G.addEdge ij.1 ij.2 mi mj
          | _, _ => (throw PyErr.assertionError : Py (MG α))
        else return G) G = .ok K → K.Weak ∧ K.nodes = N ∧ (∀ a b m, K.At a b m → P.At a b m) ∧
      (∀ a b m, P.At a b m → ((a, b) ∈ l ∨ (b, a) ∈ l) → K.At a b m) ∧ ∀ a b m, G.At a b m → K.At a b m := by
    intro l
    induction l with
    | nil => intro G K hG hN hs h; cases h; exact ⟨hG, hN, hs, by simp, fun _ _ _ h => h⟩
    | cons ij l ih =>
      intro G K hG hN hs h
      obtain ⟨i, j⟩ := ij
      rw [List.foldlM_cons] at h
      obtain ⟨G1, e1, e2⟩ := py_bind_ok h
      obtain ⟨b, e3, e4⟩ := py_bind_ok e1
      have hc := hP.connected e3
      dsimp only at hc e4
      cases b with
      | false =>
        cases e4
        obtain ⟨k1, k2, k3, k4, k5⟩ := ih _ K hG hN hs e2
        refine ⟨k1, k2, k3, ?_, k5⟩
        intro a b m hm hab
        simp only [List.mem_cons, Prod.mk.injEq] at hab
        rcases hab with (⟨rfl, rfl⟩ | h) | (⟨rfl, rfl⟩ | h)
        · exact absurd (hc.2.mpr (Or.inl ⟨m, hm⟩)) (by simp)
        · exact k4 _ _ _ hm (Or.inl h)
        · exact absurd (hc.2.mpr (Or.inr ⟨m, hm⟩)) (by simp)
        · exact k4 _ _ _ hm (Or.inr h)
      | true =>
        cases hmi : P.getEdgeMark j i with
        | none => rw [hmi] at e4; cases e4
        | some mi =>
          cases hmj : P.getEdgeMark i j with
          | none => rw [hmi, hmj] at e4; cases e4
          | some mj =>
            rw [hmi, hmj] at e4
            simp only [if_true] at e4
            have hai := hP.getMark.mp hmi
            have haj := hP.getMark.mp hmj
            have hna : ¬ G.MAdj i j := by
              intro hadj
              rw [MG.addEdge_err (fun _ _ m _ => hG.ty m) (Or.inr (Or.inl hadj))] at e4
              cases e4
            obtain ⟨H, f1, f2, f3, f4⟩ := MG.addEdge_spec (fun _ _ m _ => hG.ty m) hc.1 hna (hG.ty mi) (hG.ty mj)
            rw [e4] at f1
            cases f1
            have hsub : ∀ a b m, G1.At a b m → P.At a b m := by
              intro a b m hm
              rcases (f4 _ _ _).mp hm with h | ⟨rfl, rfl, rfl⟩ | ⟨rfl, rfl, rfl⟩
              · exact hs _ _ _ h
              · exact hai
              · exact haj
            have hw : G1.Weak := by
              refine ⟨f3.trans hG.types, ?_, ?_, ?_⟩
              · intro a b m hm
                rw [f2, hN]
                exact ⟨hn (hP.mem _ _ _ (hsub _ _ _ hm)).1, hn (hP.mem _ _ _ (hsub _ _ _ hm)).2⟩
              · intro a m hm; exact hP.irrefl _ _ (hsub _ _ _ hm)
              · intro a b m m' h h'; exact hP.one _ _ _ _ (hsub _ _ _ h) (hsub _ _ _ h')
            obtain ⟨k1, k2, k3, k4, k5⟩ := ih _ K hw (f2.trans hN) hsub e2
            refine ⟨k1, k2, k3, ?_, fun a b m h => k5 _ _ _ ((f4 _ _ _).mpr (Or.inl h))⟩
            intro a b m hm hab
            simp only [List.mem_cons, Prod.mk.injEq] at hab
            rcases hab with (⟨rfl, rfl⟩ | h) | (⟨rfl, rfl⟩ | h)
            · exact k5 _ _ _ ((f4 _ _ _).mpr (Or.inr (Or.inr ⟨rfl, rfl, hP.one _ _ _ _ hm haj⟩)))
            · exact k4 _ _ _ hm (Or.inl h)
            · exact k5 _ _ _ ((f4 _ _ _).mpr (Or.inr (Or.inl ⟨rfl, rfl, hP.one _ _ _ _ hm hai⟩)))
            · exact k4 _ _ _ hm (Or.inr h)
  obtain ⟨k1, k2, k3, k4, -⟩ := key _ (MG.empty N MG.pagTypes) G ((MG.empty_proper _ _).weak rfl) rfl
    (by intro a b m h; simp [MG.empty, MG.At] at h) h
  refine ⟨k1, k2, fun a b m => ⟨k3 a b m, fun hm => k4 a b m hm ?_⟩⟩
  obtain ⟨q1, q2⟩ := hP.mem _ _ _ hm
  exact mem_pairs_or ((o.mem _ _ _).mpr q1) ((o.mem _ _ _).mpr q2) (by rintro rfl; exact hP.irrefl _ _ hm)

/-- The fixed orientations are marks of the initial graph. -/
theorem fixedOf_sound (o : SetOrder α) {P : MG α} (hP : P.Weak) {d : Dict (α × α) Mark} (h : fixedOf o P = .ok d) :
    ∀ a b m, Dict.get? d (a, b) = some m → P.At a b m := by
  refine foldlM_keep (fun d : Dict (α × α) Mark => ∀ a b m, Dict.get? d (a, b) = some m → P.At a b m) _ _ _ ?_
    (by intro a b m h; cases h) h
  intro s ij s' _ hs he
  obtain ⟨b, e1, e2⟩ := py_bind_ok he
  cases b with
  | false => cases e2; exact hs
  | true =>
    simp only [if_true] at e2
    split at e2
    · rename_i m12 m21 h12 h21
      cases e2
      intro a b m hm
      rw [Dict.get?_set, Dict.get?_set] at hm
      split_ifs at hm with c1 c2
      · cases c1; cases hm; exact hP.getMark.mp h21
      · cases c2; cases hm; exact hP.getMark.mp h12
      · exact hs _ _ _ hm
    · cases e2

theorem init_acc (o : SetOrder α) {homology : Bool} {initial : Option (MG α)} {opts : IcdOpts} {st : IcdState α}
    (hini : ∀ P, initial = some P → P.Weak ∧ P.nodes ⊆ nodesOf sets)
    (h : init o sets homology initial opts = .ok (cfg, st)) :
    Grid sets ∧ cfg.sets = sets ∧ cfg.homology = homology ∧ cfg.opts = opts ∧
    ∃ P, (initial = some P ∨ (initial = none ∧ defaultPag sets = .ok P)) ∧ Acc ci cfg P st ∧
      ∀ a b m, Dict.get? cfg.fixed (a, b) = some m → P.At a b m := by
  unfold init at h
  dsimp only at h
  by_cases h1 : sets.length > 1
  swap
  · rw [if_pos h1] at h; cases h
  rw [if_neg (not_not.mpr h1)] at h
  by_cases h2 : sets.all (fun l => l.length == (sets.headD []).length) = true
  swap
  · rw [if_pos h2] at h; cases h
  rw [if_neg (not_not.mpr h2)] at h
  by_cases h3 : (nodesOf sets).card = sets.length * (sets.headD []).length
  swap
  · rw [if_pos h3] at h; cases h
  rw [if_neg (not_not.mpr h3)] at h
  obtain ⟨P, e1, h⟩ := py_bind_ok h
  obtain ⟨G, e2, h⟩ := py_bind_ok h
  obtain ⟨fixed, e3, h⟩ := py_bind_ok h
  cases h
  have hg := grid_of_init sets h1 h2 h3
  have hP : P.Weak ∧ P.nodes ⊆ nodesOf sets ∧ (initial = some P ∨ (initial = none ∧ defaultPag sets = .ok P)) := by
    cases initial with
    | none =>
      obtain ⟨P', q1, q2, q3, -⟩ := defaultPag_spec hg
      have e1' : defaultPag sets = .ok P := e1
      rw [q1] at e1'
      cases e1'
      exact ⟨q2, by rw [q3], Or.inr ⟨rfl, q1⟩⟩
    | some P' => cases e1; exact ⟨(hini P rfl).1, (hini P rfl).2, Or.inl rfl⟩
  obtain ⟨c1, c2, c3⟩ := copyPag_spec o hP.1 hP.2.1 e2
  have hadj : ∀ a b, P.MAdj a b ↔ G.MAdj a b := by
    intro a b
    simp only [MG.MAdj, c3]
  refine ⟨hg, rfl, rfl, rfl, P, hP.2.2, ⟨c1, fun v => ?_, fun a b q1 q2 => absurd ((hadj a b).mp q1) q2, ?_⟩, fixedOf_sound o hP.1 e3⟩
  · dsimp only
    rw [c2, nodesOf, List.mem_toFinset]
  · intro _ a b _ _ _ _ _ _ q; exact (hadj a b).mp q

end TsIcd
end Verif
