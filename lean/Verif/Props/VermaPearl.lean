import Verif.Lemmas.VermaPearl
import Verif.Props.PagEssential

/-!
# Property C91: d-separation queries tell DAGs apart exactly up to Markov equivalence
-/

namespace Verif
open Relation MG
variable {α : Type} [LinearOrder α]

/-- C91. Markov equivalent DAGs (same nodes, adjacencies and unshielded colliders) give the same result of `dsep` for all arguments, valid or
not, whatever the iteration orders. -/
theorem C91_dsep (o o' : SetOrder α) {D H : Dag α} (hD : D.WF) (hac : D.Acyclic) (he : D.Equivalent H) (i j : α) (Z : Finset α) :
    D.dsep o i j Z = H.dsep o' i j Z := by
  by_cases h : i ∈ D.nodes ∧ j ∈ D.nodes ∧ Z ⊆ D.nodes
  · obtain ⟨h1, h2, h3⟩ := h
    obtain ⟨b, b1, b2⟩ := Dag.dsep_aug o hD hac h1 h2 h3
    obtain ⟨c, c1, c2⟩ := Dag.dsep_aug o' he.wf he.acyclic (he.nodes ▸ h1) (he.nodes ▸ h2) (he.nodes ▸ h3)
    rw [b1, c1]
    rw [← Dag.moralConn_iff hac, he.moralConn hD hac, Dag.moralConn_iff he.acyclic] at b2
    congr 1
    rw [Bool.eq_iff_iff, b2, c2]
  · rw [Dag.dsep_error o hD h, Dag.dsep_error o' he.wf (by rw [he.nodes]; exact h)]

/-- C91. Conversely, DAGs over the same nodes with the same results for all pairs of different nodes and all sets of other nodes are
Markov equivalent. -/
theorem C91_converse (o o' : SetOrder α) {D H : Dag α} (hD : D.WF) (hac : D.Acyclic) (hH : H.WF) (hacH : H.Acyclic)
    (hn : H.nodes = D.nodes)
    (h : ∀ i ∈ D.nodes, ∀ j ∈ D.nodes, i ≠ j → ∀ Z ⊆ D.nodes, i ∉ Z → j ∉ Z → D.dsep o i j Z = H.dsep o' i j Z) :
    D.Equivalent H := by
  have hs : ∀ i ∈ D.nodes, ∀ j ∈ D.nodes, i ≠ j → ∀ Z ⊆ D.nodes, i ∉ Z → j ∉ Z → (D.DSeparated i j Z ↔ H.DSeparated i j Z) := by
    intro i hi j hj hij Z hZ hiZ hjZ
    obtain ⟨b, b1, b2⟩ := Dag.dsep_spec o hD hac hi hj hZ hiZ hjZ
    obtain ⟨c, c1, c2⟩ := Dag.dsep_spec o' hH hacH (hn ▸ hi) (hn ▸ hj) (hn ▸ hZ) hiZ hjZ
    have := h i hi j hj hij Z hZ hiZ hjZ
    rw [b1, c1] at this
    obtain rfl : b = c := by simpa using this
    rw [← b2, c2]
  exact Dag.equivalent_of_dseparated hD hac hH hacH hn hs

/-- C91. Equal results of `dsep`, equal CPDAGs, and Markov equivalence are the same. -/
theorem C91_cpdag (o o' : SetOrder α) {D H : Dag α} (hD : D.WF) (hac : D.Acyclic) (hH : H.WF) (hacH : H.Acyclic)
    (hn : H.nodes = D.nodes) :
    ∃ P Q, D.convertToCpdag o [1, 2, 3] (MG.pdagEmpty D.nodes) = .ok P ∧ H.convertToCpdag o' [1, 2, 3] (MG.pdagEmpty H.nodes) = .ok Q ∧
      (P.Same Q ↔ ∀ i j Z, D.dsep o i j Z = H.dsep o' i j Z) := by
  obtain ⟨P, Q, h1, h2, h3⟩ := C15_canonical o o' (rules₁ := [1, 2, 3]) (rules₂ := [1, 2, 3]) (by simp) (by simp) hD hH hac hacH hn.symm
  refine ⟨P, Q, h1, h2, h3.trans ⟨fun h => ?_, fun h => ?_⟩⟩
  · exact C91_dsep o o' hD hac ⟨hn, hH, hacH, fun a b => (h.1 a b).symm, fun a b c => (h.2 a b c).symm⟩
  · have := C91_converse o o' hD hac hH hacH hn (fun i _ j _ _ Z _ _ _ => h i j Z)
    exact ⟨fun a b => (this.adj a b).symm, fun a b c => (this.ucol a b c).symm⟩

/-- C91. The d-separation tests built from Markov equivalent DAGs are the same function, so every algorithm that gets one of them returns
the same result with the other; for example `find_true_pag`, for every set of observed nodes. -/
theorem C91_oracle (o o' : SetOrder α) {D H : Dag α} (hD : D.WF) (hac : D.Acyclic) (he : D.Equivalent H) :
    Pc.dsepTest o D = Pc.dsepTest o' H := by
  funext k i j l
  rw [Pc.dsepTest, Pc.dsepTest, C91_dsep o o' hD hac he]

theorem C91_true_pag (o : SetOrder α) {D H : Dag α} (hD : D.WF) (hac : D.Acyclic) (he : D.Equivalent H) (O : Finset α) :
    findTruePag o D O = findTruePag o H O := by
  rw [findTruePag, findTruePag, C91_oracle o o hD hac he]

/-- C91. A test that answers d-separation in a DAG answers it in all Markov equivalent DAGs. -/
theorem C91_perfect {ci : CITest α} {D H : Dag α} (hD : D.WF) (hac : D.Acyclic) (he : D.Equivalent H) :
    Pc.Perfect ci D ↔ Pc.Perfect ci H := by
  have key : ∀ i j, ∀ l : List α, i ∉ l → j ∉ l → (D.DSeparated i j l.toFinset ↔ H.DSeparated i j l.toFinset) :=
    fun i j l h1 h2 => he.dseparated hD hac (by simpa using h1) (by simpa using h2)
  simp only [Pc.Perfect, he.nodes]
  refine forall_congr' fun k => forall_congr' fun i => forall_congr' fun j => forall_congr' fun l => ?_
  refine imp_congr_right fun _ => imp_congr_right fun _ => imp_congr_right fun _ => imp_congr_right fun h1 =>
    imp_congr_right fun h2 => imp_congr_right fun _ => ?_
  rw [key i j l h1 h2]

/-! ## Two equivalent DAGs that are not equal -/

/-- `0 → 1 → 2 ← 3`. -/
def exVp : Dag Nat := ⟨{0, 1, 2, 3}, fun v => [∅, {0}, {1, 3}, ∅].getD v ∅⟩
/-- `0 ← 1 → 2 ← 3`. -/
def exVp' : Dag Nat := ⟨{0, 1, 2, 3}, fun v => [{1}, ∅, {1, 3}, ∅].getD v ∅⟩

theorem exVp_lt (a b : Nat) (h : a ∈ exVp.par b ∨ a ∈ exVp'.par b) : a < 4 ∧ b < 4 := by
  by_cases hb : b < 4
  · exact ⟨(by decide : ∀ b < 4, ∀ a ∈ exVp.par b ∪ exVp'.par b, a < 4) b hb a (Finset.mem_union.2 h), hb⟩
  · rcases b with _ | _ | _ | _ | b <;> first | omega | simp [exVp, exVp'] at h

theorem exVp_wf : exVp.WF := fun a b h => by
  have := exVp_lt a b (Or.inl h)
  exact (by decide : ∀ a < 4, ∀ b < 4, a ∈ exVp.nodes ∧ b ∈ exVp.nodes) a this.1 b this.2

theorem exVp_acyclic : exVp.Acyclic := by
  have key : ∀ a b, exVp.Edge a b → a % 3 < b % 3 ∨ (a = 3 ∧ b = 2) := fun a b h => by
    have hl := exVp_lt a b (Or.inl h)
    exact (by decide : ∀ a < 4, ∀ b < 4, a ∈ exVp.par b → a % 3 < b % 3 ∨ (a = 3 ∧ b = 2)) a hl.1 b hl.2 h
  have key' : ∀ a b, TransGen exVp.Edge a b → a % 3 < b % 3 := by
    intro a b h
    induction h with
    | single h => rcases key _ _ h with h | ⟨rfl, rfl⟩ <;> omega
    | tail _ h ih => rcases key _ _ h with h | ⟨rfl, rfl⟩ <;> omega
  exact fun v h => lt_irrefl _ (key' v v h)

theorem exVp'_acyclic : exVp'.Acyclic := by
  have key : ∀ a b, exVp'.Edge a b → (a = 1 ∨ a = 3) ∧ (b = 0 ∨ b = 2) := fun a b h => by
    have hl := exVp_lt a b (Or.inr h)
    exact (by decide : ∀ a < 4, ∀ b < 4, a ∈ exVp'.par b → (a = 1 ∨ a = 3) ∧ (b = 0 ∨ b = 2)) a hl.1 b hl.2 h
  have key' : ∀ a b, TransGen exVp'.Edge a b → (a = 1 ∨ a = 3) ∧ (b = 0 ∨ b = 2) := by
    intro a b h
    induction h with
    | single h => exact key _ _ h
    | tail _ h ih => exact ⟨ih.1, (key _ _ h).2⟩
  exact fun v h => by have := key' v v h; omega

theorem exVp_equivalent : exVp.Equivalent exVp' := by
  have hadj : ∀ a b, exVp'.Adj a b ↔ exVp.Adj a b := by
    intro a b
    by_cases hl : a < 4 ∧ b < 4
    · exact (by decide : ∀ a < 4, ∀ b < 4, ((a ∈ exVp'.par b ∨ b ∈ exVp'.par a) ↔ (a ∈ exVp.par b ∨ b ∈ exVp.par a))) a hl.1 b hl.2
    · constructor
      · rintro (h | h)
        · exact absurd (exVp_lt _ _ (Or.inr h)) hl
        · exact absurd (exVp_lt _ _ (Or.inr h)).symm hl
      · rintro (h | h)
        · exact absurd (exVp_lt _ _ (Or.inl h)) hl
        · exact absurd (exVp_lt _ _ (Or.inl h)).symm hl
  refine ⟨rfl, fun a b h => ?_, exVp'_acyclic, hadj, fun a b c => ?_⟩
  · have := exVp_lt a b (Or.inr h)
    exact (by decide : ∀ a < 4, ∀ b < 4, a ∈ exVp'.nodes ∧ b ∈ exVp'.nodes) a this.1 b this.2
  · simp only [Dag.UCol, hadj]
    constructor
    · rintro ⟨h1, h2, h3, h4⟩
      obtain rfl : b = 2 := (by decide : ∀ b < 4, ∀ a ∈ exVp'.par b, ∀ c ∈ exVp'.par b, a ≠ c → b = 2) b
        (exVp_lt _ _ (Or.inr h1)).2 a h1 c h2 h3
      exact ⟨h1, h2, h3, h4⟩
    · rintro ⟨h1, h2, h3, h4⟩
      obtain rfl : b = 2 := (by decide : ∀ b < 4, ∀ a ∈ exVp.par b, ∀ c ∈ exVp.par b, a ≠ c → b = 2) b
        (exVp_lt _ _ (Or.inl h1)).2 a h1 c h2 h3
      exact ⟨h1, h2, h3, h4⟩

/-- The hypotheses of the theorems are met by two DAGs that are not equal. -/
example : 0 ∈ exVp.par 1 ∧ 1 ∈ exVp'.par 0 := by decide
example := C91_dsep ascending descending exVp_wf exVp_acyclic exVp_equivalent
example := C91_converse ascending descending exVp_wf exVp_acyclic exVp_equivalent.wf exVp'_acyclic rfl
  (fun i _ j _ _ Z _ _ _ => C91_dsep ascending descending exVp_wf exVp_acyclic exVp_equivalent i j Z)
example := C91_true_pag ascending exVp_wf exVp_acyclic exVp_equivalent {0, 2, 3}
/-- The results are not trivial: `0` and `3` are separated, and no longer so given `2`. -/
example : Pc.dsepTest ascending exVp 0 0 3 [] = true ∧ Pc.dsepTest descending exVp' 0 0 3 [2] = false := by decide +kernel
example := C90_fci_class ascending descending true false false true exVp_wf exVp_acyclic exVp_equivalent
  (Pc.dsepTest_perfectOn ascending exVp_wf exVp_acyclic (Finset.Subset.refl _))
  (Pc.dsepTest_perfectOn descending exVp_equivalent.wf exVp'_acyclic (Finset.Subset.refl _))

end Verif
