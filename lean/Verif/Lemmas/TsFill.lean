import Verif.Lemmas.TsGrid
import Verif.Lemmas.PagKeep

/-!
# Lemmas about the orientation step of TS-ICD: fixed orientations and filling of homologous marks
-/

namespace Verif
open TsSpec

namespace MG
variable {α : Type} [DecidableEq α]

theorem Weak.getMark {G : MG α} (hG : G.Weak) {a b : α} {m : Mark} : G.getEdgeMark a b = some m ↔ G.At a b m := by
  simp only [getEdgeMark]
  constructor
  · intro h
    have := List.find?_some h
    simp only [decide_eq_true_eq] at this
    exact this
  · intro h
    cases hf : G.types.find? (fun m => decide (a ∈ G.g b m)) with
    | none =>
      have := List.find?_eq_none.mp hf m (hG.ty m)
      simp at this
      exact absurd h this
    | some m' =>
      have := List.find?_some hf
      simp only [decide_eq_true_eq] at this
      rw [hG.one _ _ _ _ this h]

theorem Weak.delete {G : MG α} (hG : G.Weak) (i j : α) :
    (G.deleteEdge i j).Weak ∧ (G.deleteEdge i j).nodes = G.nodes ∧
      ∀ a b, (G.deleteEdge i j).MAdj a b ↔ G.MAdj a b ∧ ¬ (a = i ∧ b = j) ∧ ¬ (a = j ∧ b = i) := by
  obtain ⟨h1, h2, h3⟩ := deleteEdge_spec (G := G) (fun _ _ m _ => hG.ty m) (i := i) (j := j)
  refine ⟨⟨h2.trans hG.types, ?_, ?_, ?_⟩, h1, ?_⟩
  · intro a b m h; rw [h1]; exact hG.mem _ _ _ ((h3 _ _ _).mp h).1
  · intro a m h; exact hG.irrefl _ _ ((h3 _ _ _).mp h).1
  · intro a b m m' h h'; exact hG.one _ _ _ _ ((h3 _ _ _).mp h).1 ((h3 _ _ _).mp h').1
  · intro a b
    simp only [MAdj, h3]
    constructor
    · rintro (⟨m, h, h'⟩ | ⟨m, h, h', h''⟩)
      · exact ⟨Or.inl ⟨m, h⟩, h'⟩
      · exact ⟨Or.inr ⟨m, h⟩, fun q => h'' ⟨q.2, q.1⟩, fun q => h' ⟨q.2, q.1⟩⟩
    · rintro ⟨⟨m, h⟩ | ⟨m, h⟩, h', h''⟩
      · exact Or.inl ⟨m, h, h', h''⟩
      · exact Or.inr ⟨m, h, fun q => h'' ⟨q.2, q.1⟩, fun q => h' ⟨q.2, q.1⟩⟩

/-- A loop that writes given marks at both ends of the connected pairs of a list. -/
theorem writePairs {f : α → α → Option Mark} {B : MG α → α × α → Py (MG α)}
    (hB : ∀ G ij K, G.Weak → B G ij = .ok K → (¬ G.MAdj ij.1 ij.2 ∧ K = G) ∨
      (G.MAdj ij.1 ij.2 ∧ ∃ m1 m2 K1, f ij.1 ij.2 = some m1 ∧ f ij.2 ij.1 = some m2 ∧
        G.replaceEdgeMark ij.1 ij.2 m1 = .ok K1 ∧ K1.replaceEdgeMark ij.2 ij.1 m2 = .ok K)) :
    ∀ (l : List (α × α)) (G K : MG α), G.Weak → l.foldlM B G = .ok K →
      K.Weak ∧ K.nodes = G.nodes ∧ (∀ a b, K.MAdj a b ↔ G.MAdj a b) ∧
      (∀ a b m, K.At a b m ↔ if (a, b) ∈ l ∨ (b, a) ∈ l then G.MAdj a b ∧ f a b = some m else G.At a b m) ∧
      ∀ a b, (a, b) ∈ l ∨ (b, a) ∈ l → G.MAdj a b → ∃ m, f a b = some m := by
  intro l
  induction l with
  | nil => intro G K hG h; cases h; exact ⟨hG, rfl, fun _ _ => Iff.rfl, fun _ _ _ => by simp, fun _ _ h => by simp at h⟩
  | cons ij l ih =>
    intro G K hG h
    obtain ⟨i, j⟩ := ij
    rw [List.foldlM_cons] at h
    obtain ⟨G1, e1, e2⟩ := py_bind_ok h
    rcases hB G (i, j) G1 hG e1 with ⟨hna, rfl⟩ | ⟨hadj, m1, m2, K1, f1, f2, r1, r2⟩
    · obtain ⟨k1, k2, k3, k4, k5⟩ := ih _ K hG e2
      refine ⟨k1, k2, k3, fun a b m => ?_, ?_⟩
      rotate_left
      · intro a b hab hadj
        simp only [List.mem_cons, Prod.mk.injEq] at hab
        rcases hab with (⟨rfl, rfl⟩ | h) | (⟨rfl, rfl⟩ | h)
        · exact absurd hadj hna
        · exact k5 _ _ (Or.inl h) hadj
        · exact absurd hadj.symm hna
        · exact k5 _ _ (Or.inr h) hadj
      rw [k4]
      by_cases hl : (a, b) ∈ l ∨ (b, a) ∈ l
      · rw [if_pos hl, if_pos (by rcases hl with h | h; exact Or.inl (List.mem_cons_of_mem _ h); exact Or.inr (List.mem_cons_of_mem _ h))]
      · rw [if_neg hl]
        by_cases hl' : (a, b) ∈ (i, j) :: l ∨ (b, a) ∈ (i, j) :: l
        · rw [if_pos hl']
          have hn : ¬ G1.MAdj a b := by
            simp only [List.mem_cons, Prod.mk.injEq] at hl'
            rcases hl' with (⟨rfl, rfl⟩ | h) | (⟨rfl, rfl⟩ | h)
            · exact hna
            · exact absurd (Or.inl h) hl
            · exact fun h => hna h.symm
            · exact absurd (Or.inr h) hl
          constructor
          · intro h; exact absurd (Or.inl ⟨m, h⟩) hn
          · intro h; exact absurd h.1 hn
        · rw [if_neg hl']
    · obtain ⟨q1, q2, q3⟩ := hG.mem_adj hadj
      have w1 := hG.of_replace r1 q1 q2 q3
      obtain ⟨n1, t1, a1⟩ := hG.replace r1
      obtain ⟨n2, t2, a2⟩ := w1.replace r2
      have w2 := w1.of_replace r2 (n1 ▸ q2) (n1 ▸ q1) q3.symm
      dsimp only at q1 q2 q3 hadj f1 f2 a1 a2
      have hat : ∀ a b m, G1.At a b m ↔ if (a = i ∧ b = j) ∨ (b = i ∧ a = j) then f a b = some m else G.At a b m := by
        intro a b m
        rw [a2]
        by_cases h1 : a = j ∧ b = i
        · rw [if_pos h1, if_pos (Or.inr ⟨h1.2, h1.1⟩), h1.1, h1.2, f2]
          exact ⟨fun h => h ▸ rfl, fun h => (Option.some.inj h).symm⟩
        · rw [if_neg h1, a1]
          by_cases h2 : a = i ∧ b = j
          · rw [if_pos h2, if_pos (Or.inl h2), h2.1, h2.2, f1]
            exact ⟨fun h => h ▸ rfl, fun h => (Option.some.inj h).symm⟩
          · rw [if_neg h2, if_neg (by rintro (h | h); exact h2 h; exact h1 ⟨h.2, h.1⟩)]
      have hadj2 : ∀ a b, G1.MAdj a b ↔ G.MAdj a b := by
        intro a b
        by_cases hc : (a = i ∧ b = j) ∨ (b = i ∧ a = j)
        · have ha : G.MAdj a b := by
            rcases hc with ⟨rfl, rfl⟩ | ⟨rfl, rfl⟩
            · exact hadj
            · exact hadj.symm
          refine ⟨fun _ => ha, fun _ => ?_⟩
          rcases hc with ⟨rfl, rfl⟩ | ⟨rfl, rfl⟩
          · exact Or.inl ⟨m1, by rw [hat, if_pos (Or.inl ⟨rfl, rfl⟩)]; exact f1⟩
          · exact Or.inr ⟨m1, by rw [hat, if_pos (Or.inl ⟨rfl, rfl⟩)]; exact f1⟩
        · simp only [MAdj, hat, if_neg hc, if_neg (fun h : (b = i ∧ a = j) ∨ (a = i ∧ b = j) => hc h.symm)]
      obtain ⟨k1, k2, k3, k4, k5⟩ := ih _ K w2 e2
      refine ⟨k1, k2.trans (n2.trans n1), fun a b => (k3 a b).trans (hadj2 a b), fun a b m => ?_, ?_⟩
      rotate_left
      · intro a b hab hadj
        simp only [List.mem_cons, Prod.mk.injEq] at hab
        rcases hab with (⟨rfl, rfl⟩ | h) | (⟨rfl, rfl⟩ | h)
        · exact ⟨m1, f1⟩
        · exact k5 _ _ (Or.inl h) ((hadj2 _ _).mpr hadj)
        · exact ⟨m2, f2⟩
        · exact k5 _ _ (Or.inr h) ((hadj2 _ _).mpr hadj)
      rw [k4, hadj2]
      by_cases hl : (a, b) ∈ l ∨ (b, a) ∈ l
      · rw [if_pos hl, if_pos (by rcases hl with h | h; exact Or.inl (List.mem_cons_of_mem _ h); exact Or.inr (List.mem_cons_of_mem _ h))]
      · rw [if_neg hl, hat]
        have hiff : ((a, b) ∈ (i, j) :: l ∨ (b, a) ∈ (i, j) :: l) ↔ ((a = i ∧ b = j) ∨ (b = i ∧ a = j)) := by
          simp only [List.mem_cons, Prod.mk.injEq]
          constructor
          · rintro ((h | h) | (h | h))
            · exact Or.inl h
            · exact absurd (Or.inl h) hl
            · exact Or.inr h
            · exact absurd (Or.inr h) hl
          · rintro (h | h)
            · exact Or.inl (Or.inl h)
            · exact Or.inr (Or.inl h)
        by_cases hc : (a = i ∧ b = j) ∨ (b = i ∧ a = j)
        · rw [if_pos hc, if_pos (hiff.mpr hc)]
          have ha : G.MAdj a b := by
            rcases hc with ⟨rfl, rfl⟩ | ⟨rfl, rfl⟩
            · exact hadj
            · exact hadj.symm
          exact ⟨fun h => ⟨ha, h⟩, fun h => h.2⟩
        · rw [if_neg hc, if_neg (fun h => hc (hiff.mp h))]

/-- The same loop over all pairs of nodes. -/
theorem writeAll {f : α → α → Option Mark} {B : MG α → α × α → Py (MG α)}
    (hB : ∀ G ij K, G.Weak → B G ij = .ok K → (¬ G.MAdj ij.1 ij.2 ∧ K = G) ∨
      (G.MAdj ij.1 ij.2 ∧ ∃ m1 m2 K1, f ij.1 ij.2 = some m1 ∧ f ij.2 ij.1 = some m2 ∧
        G.replaceEdgeMark ij.1 ij.2 m1 = .ok K1 ∧ K1.replaceEdgeMark ij.2 ij.1 m2 = .ok K))
    {l : List α} {G K : MG α} (hG : G.Weak) (hl : ∀ x ∈ G.nodes, x ∈ l) (h : (pairs l).foldlM B G = .ok K) :
      K.Weak ∧ K.nodes = G.nodes ∧ (∀ a b, K.MAdj a b ↔ G.MAdj a b) ∧
      (∀ a b m, K.At a b m ↔ G.MAdj a b ∧ f a b = some m) ∧ ∀ a b, G.MAdj a b → ∃ m, f a b = some m := by
  obtain ⟨h1, h2, h3, h4, h5⟩ := writePairs hB _ G K hG h
  refine ⟨h1, h2, h3, fun a b m => ?_, fun a b hab => ?_⟩
  rotate_left
  · obtain ⟨q1, q2, q3⟩ := hG.mem_adj hab
    exact h5 a b (mem_pairs_or (hl _ q1) (hl _ q2) q3) hab
  rw [h4]
  split_ifs with hc
  · exact Iff.rfl
  · have hna : ¬ G.MAdj a b := by
      intro hab
      obtain ⟨q1, q2, q3⟩ := hG.mem_adj hab
      exact hc (mem_pairs_or (hl _ q1) (hl _ q2) q3)
    exact ⟨fun h => absurd (Or.inl ⟨m, h⟩) hna, fun h => absurd h.1 hna⟩

theorem resetCircle_spec (o : SetOrder α) {G K : MG α} (hG : G.Weak) (h : G.resetOrientations o .circle G.nodes = .ok K) :
    K.Weak ∧ K.nodes = G.nodes ∧ (∀ a b, K.MAdj a b ↔ G.MAdj a b) ∧ ∀ a b m, K.At a b m ↔ G.MAdj a b ∧ m = .circle := by
  rw [resetOrientations, if_pos (hG.ty _)] at h
  obtain ⟨h1, h2, h3, h4, -⟩ := writeAll (f := fun _ _ => some .circle) (by
    intro H ij K hH e
    obtain ⟨b1, e1, e2⟩ := py_bind_ok e
    have hc := (hH.connected e1).2
    cases b1 with
    | false => cases e2; exact Or.inl ⟨fun h => by simpa using hc.mpr h, rfl⟩
    | true =>
      obtain ⟨K1, e3, e4⟩ := py_bind_ok e2
      exact Or.inr ⟨hc.mp rfl, _, _, K1, rfl, rfl, e3, e4⟩) hG (fun x hx => (o.mem _ _ _).mpr hx) h
  refine ⟨h1, h2, h3, fun a b m => ?_⟩
  rw [h4, Option.some.injEq, eq_comm (a := Mark.circle)]

end MG

namespace TsIcd
variable {α : Type} [LinearOrder α] {sets : List (List α)}
open MG (Keep)

theorem setFixed_spec (o : SetOrder α) {fixed : Dict (α × α) Mark} {G K : MG α} (hG : G.Weak)
    (h : setFixed o fixed G = .ok K) :
    K.Weak ∧ K.nodes = G.nodes ∧ (∀ a b, K.MAdj a b ↔ G.MAdj a b) ∧
      (∀ a b m, K.At a b m ↔ G.MAdj a b ∧ Dict.get? fixed (a, b) = some m) ∧
      ∀ a b, G.MAdj a b → ∃ m, Dict.get? fixed (a, b) = some m := by
  refine MG.writeAll (f := fun a b => Dict.get? fixed (a, b)) ?_ hG (fun x hx => (o.mem _ _ _).mpr hx) h
  intro H ij K hH e
  obtain ⟨b1, e1, e2⟩ := py_bind_ok e
  have hc := (hH.connected e1).2
  cases b1 with
  | false => cases e2; exact Or.inl ⟨fun h => by simpa using hc.mpr h, rfl⟩
  | true =>
    obtain ⟨m1, e3, e4⟩ := py_bind_ok e2
    obtain ⟨K1, e5, e6⟩ := py_bind_ok e4
    obtain ⟨m2, e7, e8⟩ := py_bind_ok e6
    exact Or.inr ⟨hc.mp rfl, m1, m2, K1, Dict.get_eq_ok.mp e3, Dict.get_eq_ok.mp e7, e5, e8⟩

/-! ### filling -/

theorem invariantMarks_spec (o : SetOrder α) {G : MG α} (hG : G.Weak) {M : List (α × α × Option Mark)}
    (h : invariantMarks o G = .ok M) :
    ∀ a b om, (a, b, om) ∈ M ↔ G.MAdj a b ∧ om = G.getEdgeMark a b ∧ om ≠ some .circle := by
  have key : ∀ (l : List (α × α)) (acc M : List (α × α × Option Mark)),
      l.foldlM (fun acc ij => do
        if !(← G.isConnected ij.1 ij.2) then return acc
        let m12 := G.getEdgeMark ij.1 ij.2
        let m21 := G.getEdgeMark ij.2 ij.1
        let acc := if m12 ≠ some .circle then acc ++ [(ij.1, ij.2, m12)] else acc
        return (if m21 ≠ some .circle then acc ++ [(ij.2, ij.1, m21)] else acc)) acc = (.ok M : Py _) →
      ∀ a b om, (a, b, om) ∈ M ↔ (a, b, om) ∈ acc ∨
        (((a, b) ∈ l ∨ (b, a) ∈ l) ∧ G.MAdj a b ∧ om = G.getEdgeMark a b ∧ om ≠ some .circle) := by
    intro l
    induction l with
    | nil => intro acc M h a b om; cases h; simp
    | cons ij l ih =>
      intro acc M h a b om
      obtain ⟨i, j⟩ := ij
      rw [List.foldlM_cons] at h
      obtain ⟨acc', e1, e2⟩ := py_bind_ok h
      rw [ih _ _ e2]
      obtain ⟨b1, e3, e4⟩ := py_bind_ok e1
      have hc := (hG.connected e3).2
      dsimp only at hc
      have hacc : (a, b, om) ∈ acc' ↔ (a, b, om) ∈ acc ∨
          (((a = i ∧ b = j) ∨ (b = i ∧ a = j)) ∧ G.MAdj a b ∧ om = G.getEdgeMark a b ∧ om ≠ some .circle) := by
        cases b1 with
        | false =>
          cases e4
          constructor
          · exact Or.inl
          · rintro (h | ⟨⟨rfl, rfl⟩ | ⟨rfl, rfl⟩, h2, -⟩)
            · exact h
            · exact absurd (hc.mpr h2) (by simp)
            · exact absurd (hc.mpr h2.symm) (by simp)
        | true =>
          have hadj := hc.mp rfl
          have e5 : acc' = (if G.getEdgeMark j i ≠ some .circle then
              (if G.getEdgeMark i j ≠ some .circle then acc ++ [(i, j, G.getEdgeMark i j)] else acc) ++ [(j, i, G.getEdgeMark j i)]
              else (if G.getEdgeMark i j ≠ some .circle then acc ++ [(i, j, G.getEdgeMark i j)] else acc)) := by
            cases e4; rfl
          have m1 : ∀ (P : Prop) [Decidable P] (A : List (α × α × Option Mark)) x, (a, b, om) ∈ (if P then A ++ [x] else A) ↔
              (a, b, om) ∈ A ∨ (P ∧ (a, b, om) = x) := by
            intro P _ A x
            split_ifs with hP <;> simp [hP]
          rw [e5, m1, m1]
          simp only [Prod.mk.injEq]
          constructor
          · rintro ((h | ⟨h1, rfl, rfl, rfl⟩) | ⟨h1, rfl, rfl, rfl⟩)
            · exact Or.inl h
            · exact Or.inr ⟨Or.inl ⟨rfl, rfl⟩, hadj, rfl, h1⟩
            · exact Or.inr ⟨Or.inr ⟨rfl, rfl⟩, hadj.symm, rfl, h1⟩
          · rintro (h | ⟨⟨rfl, rfl⟩ | ⟨rfl, rfl⟩, -, rfl, h1⟩)
            · exact Or.inl (Or.inl h)
            · exact Or.inl (Or.inr ⟨h1, rfl, rfl, rfl⟩)
            · exact Or.inr ⟨h1, rfl, rfl, rfl⟩
      rw [hacc]
      simp only [List.mem_cons, Prod.mk.injEq]
      constructor
      · rintro ((h | ⟨h1 | h1, h2⟩) | ⟨h1 | h1, h2⟩)
        · exact Or.inl h
        · exact Or.inr ⟨Or.inl (Or.inl h1), h2⟩
        · exact Or.inr ⟨Or.inr (Or.inl h1), h2⟩
        · exact Or.inr ⟨Or.inl (Or.inr h1), h2⟩
        · exact Or.inr ⟨Or.inr (Or.inr h1), h2⟩
      · rintro (h | ⟨(h1 | h1) | (h1 | h1), h2⟩)
        · exact Or.inl (Or.inl h)
        · exact Or.inl (Or.inr ⟨Or.inl h1, h2⟩)
        · exact Or.inr ⟨Or.inl h1, h2⟩
        · exact Or.inl (Or.inr ⟨Or.inr h1, h2⟩)
        · exact Or.inr ⟨Or.inr h1, h2⟩
  intro a b om
  rw [key _ _ _ h]
  constructor
  · rintro (h | ⟨-, h⟩)
    · cases h
    · exact h
  · intro h
    obtain ⟨q1, q2, q3⟩ := hG.mem_adj h.1
    exact Or.inr ⟨mem_pairs_or ((o.mem _ _ _).mpr q1) ((o.mem _ _ _).mpr q2) q3, h⟩

theorem invariantMarks_ok (o : SetOrder α) (G : MG α) : ∃ M, invariantMarks o G = .ok M := by
  have key : ∀ (l : List (α × α)) (acc : List (α × α × Option Mark)), (∀ ij ∈ l, ij.1 ≠ ij.2) → ∃ M : List (α × α × Option Mark),
      l.foldlM (fun acc ij => do
        if !(← G.isConnected ij.1 ij.2) then return acc
        let m12 := G.getEdgeMark ij.1 ij.2
        let m21 := G.getEdgeMark ij.2 ij.1
        let acc := if m12 ≠ some .circle then acc ++ [(ij.1, ij.2, m12)] else acc
        return (if m21 ≠ some .circle then acc ++ [(ij.2, ij.1, m21)] else acc)) acc = (.ok M : Py _) := by
    intro l
    induction l with
    | nil => intro acc _; exact ⟨acc, rfl⟩
    | cons ij l ih =>
      intro acc h
      obtain ⟨b, hb⟩ : ∃ b, G.isConnected ij.1 ij.2 = .ok b := ⟨_, if_neg (h ij (by simp))⟩
      have ih' := fun acc => ih acc (fun x hx => h x (List.mem_cons_of_mem _ hx))
      cases b with
      | false =>
        obtain ⟨M, hM⟩ := ih' acc
        refine ⟨M, ?_⟩
        rw [List.foldlM_cons, py_bind (a := acc) (by rw [py_bind hb]; rfl)]
        exact hM
      | true =>
        obtain ⟨M, hM⟩ := ih' _
        refine ⟨M, ?_⟩
        rw [List.foldlM_cons, py_bind (by rw [py_bind hb]; rfl)]
        exact hM
  exact key _ _ (fun ij hij => mem_pairs_ne (o.nodup _ _) hij)

/-- All writes for one invariant mark. -/
theorem batch_spec {m : Mark} : ∀ (h : List (α × α)) (G : MG α), G.Weak →
    (∀ cp ∈ h, cp.1 ∈ G.nodes ∧ cp.2 ∈ G.nodes ∧ cp.1 ≠ cp.2) →
    ∃ K, h.foldlM (fun (G : MG α) cp => G.replaceEdgeMark cp.2 cp.1 m) G = .ok K ∧ K.Weak ∧ K.nodes = G.nodes ∧
      ∀ a b m', K.At a b m' ↔ if (b, a) ∈ h then m' = m else G.At a b m' := by
  intro h
  induction h with
  | nil => intro G hG _; exact ⟨G, rfl, hG, rfl, by simp⟩
  | cons cp h ih =>
    intro G hG hh
    obtain ⟨q1, q2, q3⟩ := hh cp (by simp)
    obtain ⟨H, e1⟩ := hG.replace_ok cp.2 cp.1 m
    obtain ⟨n1, -, a1⟩ := hG.replace e1
    have w := hG.of_replace e1 q2 q1 q3.symm
    obtain ⟨K, e2, w2, n2, a2⟩ := ih H w (fun x hx => n1 ▸ hh x (List.mem_cons_of_mem _ hx))
    refine ⟨K, by rw [List.foldlM_cons, py_bind e1]; exact e2, w2, n2.trans n1, fun a b m' => ?_⟩
    rw [a2, a1]
    by_cases h1 : (b, a) ∈ h
    · rw [if_pos h1, if_pos (List.mem_cons_of_mem _ h1)]
    · rw [if_neg h1]
      by_cases h2 : a = cp.2 ∧ b = cp.1
      · rw [if_pos h2, if_pos (List.mem_cons.mpr (Or.inl (by rw [h2.1, h2.2])))]
      · rw [if_neg h2, if_neg (by
          intro h3
          rcases List.mem_cons.mp h3 with h3 | h3
          · exact h2 ⟨by rw [← h3], by rw [← h3]⟩
          · exact h1 h3)]

/-- The writes for one entry of the list of invariant marks. -/
def fillBody (sets : List (List α)) (G : MG α) (pcm : α × α × Option Mark) : Py (MG α) := do
  let h ← markHomology sets pcm.1 pcm.2.1
  h.foldlM (fun (G : MG α) cp =>
    match pcm.2.2 with
    | some m => G.replaceEdgeMark cp.2 cp.1 m
    | none => .error .assertionError) G

/-- The loop over the invariant marks. -/
theorem fillLoop_spec (hg : Grid sets) : ∀ (M : List (α × α × Option Mark)) (G : MG α), G.Weak →
    (∀ v, v ∈ G.nodes ↔ v ∈ sets.flatten) → (∀ p ∈ M, p.1 ∈ G.nodes ∧ p.2.1 ∈ G.nodes ∧ p.1 ≠ p.2.1) →
    ((∃ p ∈ M, p.2.2 = none) → ∃ e, M.foldlM (fillBody sets) G = .error e) ∧
    ((∀ p ∈ M, p.2.2 ≠ none) → ∃ K, M.foldlM (fillBody sets) G = .ok K ∧ K.Weak ∧ K.nodes = G.nodes ∧
      (∀ a b, (∃ p c om, (p, c, om) ∈ M ∧ Homologous sets p c a b) →
        ∃ p c m, (p, c, some m) ∈ M ∧ Homologous sets p c a b ∧
          ∀ a' b', Homologous sets a b a' b' → ∀ m', K.At a' b' m' ↔ m' = m) ∧
      (∀ a b, (¬ ∃ p c om, (p, c, om) ∈ M ∧ Homologous sets p c a b) → ∀ m', K.At a b m' ↔ G.At a b m')) := by
  intro M
  induction M with
  | nil =>
    intro G hG _ _
    refine ⟨fun ⟨p, h, _⟩ => (by cases h), fun _ => ⟨G, rfl, hG, rfl, ?_, fun _ _ _ _ => Iff.rfl⟩⟩
    rintro a b ⟨p, c, om, h, -⟩
    cases h
  | cons x M ih =>
    intro G hG hn hM
    obtain ⟨p, c, om⟩ := x
    obtain ⟨hp, hc, hpc⟩ := hM _ List.mem_cons_self
    dsimp only at hp hc hpc
    obtain ⟨l, hl, hlm⟩ := markHomology_spec hg ((hn p).mp hp) ((hn c).mp hc)
    cases om with
    | none =>
      refine ⟨fun _ => ?_, fun h => absurd rfl (h _ List.mem_cons_self)⟩
      have hmem := (hlm p c).mpr (Homologous.refl' ((hn p).mp hp) ((hn c).mp hc))
      cases l with
      | nil => cases hmem
      | cons cp l =>
        refine ⟨.assertionError, ?_⟩
        rw [List.foldlM_cons, fillBody, py_bind hl, List.foldlM_cons]
        rfl
    | some m =>
      obtain ⟨H, e1, w1, n1, a1⟩ := batch_spec (m := m) l G hG (by
        intro cp hcp
        have hh := (hlm cp.2 cp.1).mp hcp
        obtain ⟨-, -, ⟨_, _, h1⟩, ⟨_, _, h2⟩⟩ := hh.cells
        exact ⟨(hn _).mpr h2.mem, (hn _).mpr h1.mem, (hh.ne hg hpc).symm⟩)
      have hrw : ∀ K : Py (MG α), (M.foldlM (fillBody sets) H = K) → (((p, c, some m) :: M).foldlM (fillBody sets) G = K) := by
        intro K hK
        rw [List.foldlM_cons, py_bind (a := H) (by rw [fillBody, py_bind hl]; exact e1)]
        exact hK
      obtain ⟨i1, i2⟩ := ih H w1 (fun v => by rw [n1]; exact hn v)
        (fun q hq => by rw [n1]; exact hM q (List.mem_cons_of_mem _ hq))
      refine ⟨?_, ?_⟩
      · rintro ⟨q, hq, hq'⟩
        rcases List.mem_cons.mp hq with rfl | hq
        · cases hq'
        · obtain ⟨e, he⟩ := i1 ⟨q, hq, hq'⟩
          exact ⟨e, hrw _ he⟩
      · intro hall
        obtain ⟨K, k1, k2, k3, k4, k5⟩ := i2 (fun q hq => hall q (List.mem_cons_of_mem _ hq))
        refine ⟨K, hrw _ k1, k2, k3.trans n1, ?_, ?_⟩
        · rintro a b ⟨p', c', om', h1, h2⟩
          by_cases hin : ∃ p c om, (p, c, om) ∈ M ∧ Homologous sets p c a b
          · obtain ⟨p1, c1, m1, q1, q2, q3⟩ := k4 a b hin
            exact ⟨p1, c1, m1, List.mem_cons_of_mem _ q1, q2, q3⟩
          · rcases List.mem_cons.mp h1 with h1 | h1
            · cases h1
              refine ⟨p, c, m, List.mem_cons_self, h2, ?_⟩
              intro a' b' hab m'
              rw [k5 a' b' (by
                rintro ⟨p1, c1, om1, q1, q2⟩
                exact hin ⟨p1, c1, om1, q1, q2.trans hg hab.symm⟩), a1, if_pos ((hlm _ _).mpr (h2.trans hg hab))]
            · exact absurd ⟨p', c', om', h1, h2⟩ hin
        · intro a b hno m'
          rw [k5 a b (by
            rintro ⟨p1, c1, om1, q1, q2⟩
            exact hno ⟨p1, c1, om1, List.mem_cons_of_mem _ q1, q2⟩), a1, if_neg (by
            intro h
            exact hno ⟨p, c, some m, List.mem_cons_self, (hlm _ _).mp h⟩)]

/-- A homologous pair of `a`, `b` has an invariant mark. -/
def Oriented (sets : List (List α)) (G : MG α) (a b : α) : Prop :=
  ∃ p c m, G.At p c m ∧ m ≠ .circle ∧ Homologous sets p c a b

theorem fill_spec (hg : Grid sets) (o : SetOrder α) {G : MG α} (hG : G.Weak) (hn : ∀ v, v ∈ G.nodes ↔ v ∈ sets.flatten) :
    ((∃ a b, G.MAdj a b ∧ ∀ m, ¬ G.At a b m) → ∃ e, fillHomology o sets G = .error e) ∧
    ((∀ a b, G.MAdj a b → ∃ m, G.At a b m) → ∃ K, fillHomology o sets G = .ok K ∧ K.Weak ∧ K.nodes = G.nodes ∧
      (∀ a b, Oriented sets G a b → ∃ p c m, G.At p c m ∧ m ≠ .circle ∧ Homologous sets p c a b ∧
          ∀ a' b', Homologous sets a b a' b' → ∀ m', K.At a' b' m' ↔ m' = m) ∧
      (∀ a b, ¬ Oriented sets G a b → ∀ m', K.At a b m' ↔ G.At a b m')) := by
  obtain ⟨M, hM⟩ := invariantMarks_ok o G
  have hspec := invariantMarks_spec o hG hM
  obtain ⟨h1, h2⟩ := fillLoop_spec hg M G hG hn (by
    rintro ⟨a, b, om⟩ hp
    exact hG.mem_adj ((hspec _ _ _).mp hp).1)
  have hfill : ∀ K, M.foldlM (fillBody sets) G = K → fillHomology o sets G = K := by
    intro K hK
    rw [fillHomology, py_bind hM]
    exact hK
  have hori : ∀ m p c, (p, c, some m) ∈ M ↔ G.At p c m ∧ m ≠ .circle := by
    intro m p c
    rw [hspec, eq_comm, hG.getMark, ne_eq, Option.some.injEq]
    exact ⟨fun h => h.2, fun h => ⟨Or.inl ⟨m, h.1⟩, h⟩⟩
  refine ⟨?_, ?_⟩
  · rintro ⟨a, b, hab, hno⟩
    obtain ⟨e, he⟩ := h1 ⟨(a, b, none), (hspec _ _ _).mpr ⟨hab, by
      cases hgm : G.getEdgeMark a b with
      | none => rfl
      | some m => exact absurd (hG.getMark.mp hgm) (hno m), by simp⟩, rfl⟩
    exact ⟨e, hfill _ he⟩
  · intro hboth
    have hsome : ∀ p ∈ M, p.2.2 ≠ none := by
      rintro ⟨a, b, om⟩ hp
      obtain ⟨q1, q2, q3⟩ := (hspec _ _ _).mp hp
      obtain ⟨m, hm⟩ := hboth _ _ q1
      rw [hG.getMark.mpr hm] at q2
      simp [q2]
    obtain ⟨K, k1, k2, k3, k4, k5⟩ := h2 hsome
    have hiff : ∀ a b, (∃ p c om, (p, c, om) ∈ M ∧ Homologous sets p c a b) ↔ Oriented sets G a b := by
      intro a b
      constructor
      · rintro ⟨p, c, om, q1, q2⟩
        cases om with
        | none => exact absurd rfl (hsome _ q1)
        | some m => exact ⟨p, c, m, ((hori _ _ _).mp q1).1, ((hori _ _ _).mp q1).2, q2⟩
      · rintro ⟨p, c, m, q1, q2, q3⟩
        exact ⟨p, c, some m, (hori _ _ _).mpr ⟨q1, q2⟩, q3⟩
    refine ⟨K, hfill _ k1, k2, k3, ?_, ?_⟩
    · intro a b hab
      obtain ⟨p, c, m, q1, q2, q3⟩ := k4 a b ((hiff a b).mpr hab)
      exact ⟨p, c, m, ((hori _ _ _).mp q1).1, ((hori _ _ _).mp q1).2, q2, q3⟩
    · intro a b hab
      exact k5 a b (fun h => hab ((hiff a b).mp h))

end TsIcd
end Verif
