import Verif.Spec.Cleann
import Verif.Lemmas.PdsTree

/-!
# Lemmas about the searches for explanations
-/

namespace Verif
namespace Cleann
variable {α β : Type} [DecidableEq α]

/-- The common form of the two loops over sizes. -/
def loop (f : Nat → List β) (minimal : Bool) : List Nat → List β → Bool → List β
  | [], acc, _ => acc
  | k :: ks, acc, found =>
    if (found || !(f k).isEmpty) && minimal then acc ++ f k else loop f minimal ks (acc ++ f k) (found || !(f k).isEmpty)

theorem sizes_eq (o : SetOrder α) (test : List α → α → Bool) (minimal : Bool) (target : α) (t : PdsTree α) (full : Finset α)
    (ks : List Nat) (acc : List (Finset α × WithTop Nat)) (found : Bool) :
    sizes o test minimal target t full ks acc found = loop (sized o test target t full) minimal ks acc found := by
  induction ks generalizing acc found with
  | nil => rfl
  | cons k ks ih =>
    rw [sizes, loop]
    split
    · rfl
    · exact ih _ _

theorem exhaustSizes_eq (test : List α → α → Bool) (minimal : Bool) (target : α) (tokens : List α)
    (ks : List Nat) (acc : List (List α)) (found : Bool) :
    exhaustSizes test minimal target tokens ks acc found = loop (exhaustSized test target tokens) minimal ks acc found := by
  induction ks generalizing acc found with
  | nil => rfl
  | cons k ks ih =>
    rw [exhaustSizes, loop]
    rw [Bool.and_comm]
    split
    · rfl
    · exact ih _ _

theorem loop_all (f : Nat → List β) (ks : List Nat) (acc : List β) (found : Bool) :
    loop f false ks acc found = acc ++ ks.flatMap f := by
  induction ks generalizing acc found with
  | nil => simp [loop]
  | cons k ks ih => rw [loop, if_neg (by simp), ih, List.flatMap_cons, List.append_assoc]

/-- The first nonempty list. -/
theorem loop_first (f : Nat → List β) (ks : List Nat) (acc : List β) :
    (loop f true ks acc false = acc ∧ ∀ k ∈ ks, f k = []) ∨
    ∃ pre k post, ks = pre ++ k :: post ∧ (∀ j ∈ pre, f j = []) ∧ f k ≠ [] ∧ loop f true ks acc false = acc ++ f k := by
  induction ks generalizing acc with
  | nil => exact Or.inl ⟨rfl, by simp⟩
  | cons k ks ih =>
    rw [loop]
    by_cases h : f k = []
    · rw [if_neg (by simp [h]), h, List.append_nil]
      simp only [List.isEmpty_nil, Bool.not_true, Bool.or_self]
      rcases ih acc with ⟨h1, h2⟩ | ⟨pre, j, post, h1, h2, h3, h4⟩
      · exact Or.inl ⟨h1, by simpa [h] using h2⟩
      · exact Or.inr ⟨k :: pre, j, post, by rw [h1]; rfl, by simpa [h] using h2, h3, h4⟩
    · rw [if_pos (by simp [h])]
      exact Or.inr ⟨[], k, ks, rfl, by simp, h, rfl⟩

theorem loop_spec (f : Nat → List β) (minimal : Bool) (n : Nat) :
    ∀ x, x ∈ loop f minimal ((List.range n).map (· + 1)) [] false ↔
      ∃ k, 1 ≤ k ∧ k ≤ n ∧ x ∈ f k ∧ (minimal = true → ∀ j, 1 ≤ j → j < k → f j = []) := by
  intro x
  have hm : ∀ k, k ∈ (List.range n).map (· + 1) ↔ 1 ≤ k ∧ k ≤ n := by
    intro k
    rw [List.mem_map]
    constructor
    · rintro ⟨i, hi, rfl⟩
      rw [List.mem_range] at hi
      omega
    · rintro ⟨h1, h2⟩
      exact ⟨k - 1, List.mem_range.mpr (by omega), by omega⟩
  cases minimal with
  | false =>
    rw [loop_all, List.nil_append, List.mem_flatMap]
    refine exists_congr fun k => ?_
    rw [hm, and_assoc]
    simp
  | true =>
    have hs : ((List.range n).map (· + 1)).Pairwise (· < ·) := by
      rw [List.pairwise_map]
      exact List.pairwise_lt_range.imp (by intro a b h; omega)
    rcases loop_first f ((List.range n).map (· + 1)) [] with ⟨h1, h2⟩ | ⟨pre, k, post, h1, h2, h3, h4⟩
    · rw [h1]
      constructor
      · simp
      · rintro ⟨k, a1, a2, a3, -⟩
        rw [h2 k ((hm k).mpr ⟨a1, a2⟩)] at a3
        exact a3
    · rw [h4, List.nil_append]
      have hpre : ∀ j, 1 ≤ j → j < k → j ∈ pre := by
        intro j hj hjk
        have hk := (hm k).mp (by rw [h1]; simp)
        have : j ∈ (List.range n).map (· + 1) := (hm j).mpr ⟨hj, by omega⟩
        rw [h1, List.mem_append, List.mem_cons] at this
        rw [h1, List.pairwise_append, List.pairwise_cons] at hs
        rcases this with h | h | h
        · exact h
        · omega
        · have := hs.2.1.1 j h
          omega
      constructor
      · intro hx
        have hk := (hm k).mp (by rw [h1]; simp)
        exact ⟨k, hk.1, hk.2, hx, fun _ j hj hjk => h2 j (hpre j hj hjk)⟩
      · rintro ⟨k', a1, a2, a3, a4⟩
        rcases Nat.lt_trichotomy k' k with h | h | h
        · rw [h2 k' (hpre k' a1 h)] at a3
          simp at a3
        · rw [← h]
          exact a3
        · have hk := (hm k).mp (by rw [h1]; simp)
          exact absurd (a4 rfl k hk.1 h) h3

theorem loop_pairwise {R : β → β → Prop} (f : Nat → List β) (minimal : Bool) (n : Nat) (h1 : ∀ k, (f k).Pairwise R)
    (h2 : ∀ j k, j < k → ∀ x ∈ f j, ∀ y ∈ f k, R x y) :
    (loop f minimal ((List.range n).map (· + 1)) [] false).Pairwise R := by
  cases minimal with
  | false =>
    rw [loop_all, List.nil_append, List.pairwise_flatMap]
    refine ⟨fun k _ => h1 k, ?_⟩
    rw [List.pairwise_map]
    exact List.pairwise_lt_range.imp (fun {a b} h => h2 _ _ (by omega))
  | true =>
    rcases loop_first f ((List.range n).map (· + 1)) [] with ⟨h, -⟩ | ⟨pre, k, post, -, -, -, h⟩
    · rw [h]
      exact List.Pairwise.nil
    · rw [h]
      exact h1 k

theorem mem_sized {o : SetOrder α} {test : List α → α → Bool} {target : α} {t : PdsTree α} {full : Finset α} {k : Nat}
    {T : Finset α} {d : WithTop Nat} :
    (T, d) ∈ sized o test target t full k ↔ (T ⊆ full ∧ T.card = k ∧ (∀ v ∈ T, ∃ l, PdsTree.IsBranch t (l ++ [v]) ∧ ∀ x ∈ l, x ∈ T) ∧
      d = ∑ v ∈ T, t.minDist v) ∧ test (o.iter target T) target = true := by
  rw [sized, List.mem_filter, List.mem_insertionSort, (PdsTree.subsetsList_spec o t full k).2]

theorem sized_nodup (o : SetOrder α) (test : List α → α → Bool) (target : α) (t : PdsTree α) (full : Finset α) (k : Nat) :
    (sized o test target t full k).Pairwise (fun c d => c.1 ≠ d.1) := by
  rw [sized]
  refine List.Pairwise.filter _ ?_
  have h := (PdsTree.subsetsList_spec o t full k).1
  rw [← List.pairwise_map (f := Prod.fst) (R := (· ≠ ·))]
  exact ((List.perm_insertionSort (fun c d : Finset α × WithTop Nat => c.2 ≤ d.2) _).map Prod.fst).nodup_iff.mpr h

theorem sized_sorted (o : SetOrder α) (test : List α → α → Bool) (target : α) (t : PdsTree α) (full : Finset α) (k : Nat) :
    (sized o test target t full k).Pairwise (fun c d => c.2 ≤ d.2) := by
  rw [sized]
  refine List.Pairwise.filter _ ?_
  have : Std.Total (fun c d : Finset α × WithTop Nat => c.2 ≤ d.2) := ⟨fun a b => le_total a.2 b.2⟩
  have : IsTrans (Finset α × WithTop Nat) (fun c d => c.2 ≤ d.2) := ⟨fun a b c h h' => le_trans h h'⟩
  exact List.pairwise_insertionSort _ _

theorem explain_eq {o : SetOrder α} {learn : Py (MG α)} {st : CleannState α} {G : MG α}
    (hst : st.graph = some G ∨ st.graph = none ∧ learn = .ok G) {target : α} {maxRange : Option Nat} {t : PdsTree α} {S : Finset α}
    (h : G.createPdsTree o target none maxRange = .ok (t, S)) (maxSize : Option Int) :
    explain o learn st target maxSize maxRange =
      .ok ({ st with graph := some G, results := Dict.set st.results target ⟨t, S, t.maxDepth,
          match st.tester with
          | none => if S.card ≤ maxSize.getD S.card then [(S, ((maxSize.getD S.card).toNat : WithTop Nat))] else []
          | some test => sizes o test st.minimal target t S ((List.range (maxSize.getD S.card).toNat).map (· + 1)) [] false⟩ },
        match st.tester with
          | none => if S.card ≤ maxSize.getD S.card then [(S, ((maxSize.getD S.card).toNat : WithTop Nat))] else []
          | some test => sizes o test st.minimal target t S ((List.range (maxSize.getD S.card).toNat).map (· + 1)) [] false) := by
  obtain ⟨g, r, te, mi⟩ := st
  rcases hst with hg | ⟨hg, rfl⟩
  all_goals
    simp only at hg
    subst hg
    exact py_bind h _

end Cleann
end Verif
