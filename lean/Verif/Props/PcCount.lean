import Verif.Lemmas.PcCount
import Verif.Props.Pc

/-!
# Property C94: PC needs few CI tests, with small conditioning sets, if the true graph is sparse
-/

namespace Verif
open Relation
variable {α : Type} [LinearOrder α]

/-- C94. If no node of the DAG has more than `k` parents or more than `k + 1` neighbours, and the test answers d-separation correctly
whenever there are at most `k` conditioning nodes, then PC returns the CPDAG, whatever the test answers for larger sets, and does at most
`n ^ (k + 2)` tests, `n` being the number of nodes. -/
theorem C94_sparse (o o' : SetOrder α) {ci : CITest α} (overwrite : Bool) {D : Dag α} (hD : D.WF) (hac : D.Acyclic) {k : Nat}
    (hpar : ∀ v, (D.par v).card ≤ k) (hdeg : ∀ v, ∀ S : Finset α, (∀ u ∈ S, D.Adj u v) → S.card ≤ k + 1)
    (hp : Pc.PerfectUpTo ci D k) :
    ∃ st P, Pc.learnStructure o ci overwrite (Pc.init o D.nodes) = .ok st ∧
      D.convertToCpdag o' [1, 2, 3] (MG.pdagEmpty D.nodes) = .ok P ∧ st.graph.Same P ∧ st.calls ≤ D.nodes.card ^ (k + 2) := by
  classical
  let ci0 : CITest α := fun c i j l => if l.length ≤ k then ci c i j l else decide (D.DSeparated i j l.toFinset)
  have hp0 : Pc.Perfect ci0 D := by
    intro c i j l h1 h2 h3 h4 h5 h6
    by_cases hl : l.length ≤ k
    · simp only [ci0, if_pos hl]
      exact hp c i j l h1 h2 h3 h4 h5 h6 hl
    · simp only [ci0, if_neg hl, decide_eq_true_eq]
  have hadj : ∀ a b, D.Adj a b → (Pc.init o D.nodes).graph.Und a b := fun a b h => MG.pdagComplete_und.mpr
    ⟨h.elim (fun h => (hD _ _ h).1) (fun h => (hD _ _ h).2), h.elim (fun h => (hD _ _ h).2) (fun h => (hD _ _ h).1), by
      rintro rfl
      rcases h with h | h <;> exact Dag.irrefl hac _ h⟩
  obtain ⟨h1, st1, h2, h3⟩ := Pc.skeletonLoop_agree o (ci := ci0) (ci' := ci) hD hac hp0 overwrite hpar hdeg
    (fun c i j l hl => by simp only [ci0, if_pos hl]) (MG.pdagComplete_wf D.nodes) rfl (D.nodes.card + 1) 0 (Pc.init o D.nodes) (by omega)
    (Pc.init_inv o ci0 D.nodes) hadj (fun _ _ _ _ _ _ h => absurd h (Nat.not_lt_zero _)) (fun _ _ h => h)
  have h2' : Pc.learnSkeleton o ci0 overwrite (Pc.init o D.nodes) = .ok st1 := h2
  have h1' : Pc.learnSkeleton o ci overwrite (Pc.init o D.nodes) = .ok st1 := h1.trans h2
  obtain ⟨st, P, k1, k2, k3⟩ := C23_pc_cpdag o o' overwrite hD hac hp0
  have hsame : Pc.learnStructure o ci overwrite (Pc.init o D.nodes) = Pc.learnStructure o ci0 overwrite (Pc.init o D.nodes) := by
    rw [Pc.learnStructure, Pc.learnStructure, h1', h2']
  refine ⟨st, P, hsame.trans k1, k2, k3, ?_⟩
  have hcalls : st.calls = st1.calls := by
    rw [Pc.learnStructure, py_bind h2'] at k1
    obtain ⟨G, -, k1⟩ := py_bind_ok k1
    obtain ⟨G', -, k1⟩ := py_bind_ok k1
    cases k1
    rfl
  rw [hcalls]
  refine h3.trans ?_
  rw [← Finset.range_eq_Ico, ← Finset.mul_sum]
  have hc := sum_choose_le (D.nodes.card - 2) k
  simp only [Pc.init, Nat.zero_add]
  by_cases hn : D.nodes.card ≤ 1
  · have : D.nodes.card * (D.nodes.card - 1) = 0 := by
      rw [show D.nodes.card - 1 = 0 by omega, Nat.mul_zero]
    rw [this, Nat.zero_mul]
    exact Nat.zero_le _
  · calc D.nodes.card * (D.nodes.card - 1) * ∑ s ∈ Finset.range (k + 1), (D.nodes.card - 2).choose s
        ≤ D.nodes.card * D.nodes.card * D.nodes.card ^ k :=
          Nat.mul_le_mul (Nat.mul_le_mul_left _ (Nat.sub_le _ _)) (hc.trans (Nat.pow_le_pow_left (by omega) k))
      _ = D.nodes.card ^ (k + 2) := by ring

/-- C94, the simplest bound: at most `k` neighbours. -/
theorem C94_degree (o o' : SetOrder α) {ci : CITest α} (overwrite : Bool) {D : Dag α} (hD : D.WF) (hac : D.Acyclic) {k : Nat}
    (hdeg : ∀ v, ∀ S : Finset α, (∀ u ∈ S, D.Adj u v) → S.card ≤ k) (hp : Pc.PerfectUpTo ci D k) :
    ∃ st P, Pc.learnStructure o ci overwrite (Pc.init o D.nodes) = .ok st ∧
      D.convertToCpdag o' [1, 2, 3] (MG.pdagEmpty D.nodes) = .ok P ∧ st.graph.Same P ∧ st.calls ≤ D.nodes.card ^ (k + 2) :=
  C94_sparse o o' overwrite hD hac (fun v => hdeg v _ fun _ hu => Or.inl hu) (fun v S hS => (hdeg v S hS).trans (by omega)) hp

/-! ## Examples -/

/-- The DAG `0 → 1`, `0 → 2`, `1 → 3`, `2 → 3`. -/
def exDiamond : Dag Nat := ⟨{0, 1, 2, 3}, fun v => [∅, {0}, {0}, {1, 2}].getD v ∅⟩

theorem exDiamond_edge {a b : Nat} (h : exDiamond.Edge a b) : a < b ∧ b < 4 := by
  have hb : b < 4 := by
    by_contra hn
    have : exDiamond.par b = ∅ := by
      rcases b with _ | _ | _ | _ | b <;> first | omega | rfl
    replace h : a ∈ exDiamond.par b := h
    rw [this] at h
    simp at h
  exact ⟨(by decide : ∀ b < 4, ∀ a ∈ exDiamond.par b, a < b) b hb a h, hb⟩

theorem exDiamond_wf : exDiamond.WF := fun a b h => by
  obtain ⟨h1, h2⟩ := exDiamond_edge h
  have : ∀ a < 4, a ∈ exDiamond.nodes := by decide
  exact ⟨this a (by omega), this b h2⟩

theorem exDiamond_acyclic : exDiamond.Acyclic := by
  have key : ∀ a b, TransGen exDiamond.Edge a b → a < b := by
    intro a b h
    induction h with
    | single h => exact (exDiamond_edge h).1
    | tail _ h ih => exact ih.trans (exDiamond_edge h).1
  exact fun a h => (key a a h).ne rfl

theorem exDiamond_degree (v : Nat) (S : Finset Nat) (hS : ∀ u ∈ S, exDiamond.Adj u v) : S.card ≤ 2 := by
  have hsub : S ⊆ exDiamond.nodes.filter (fun u => u ∈ exDiamond.par v ∨ v ∈ exDiamond.par u) := fun u hu =>
    Finset.mem_filter.mpr ⟨(hS u hu).elim (fun h => (exDiamond_wf _ _ h).1) (fun h => (exDiamond_wf _ _ h).2), hS u hu⟩
  refine (Finset.card_le_card hsub).trans ?_
  by_cases hv : v < 4
  · exact (by decide : ∀ v < 4, (exDiamond.nodes.filter (fun u => u ∈ exDiamond.par v ∨ v ∈ exDiamond.par u)).card ≤ 2) v hv
  · have : exDiamond.nodes.filter (fun u => u ∈ exDiamond.par v ∨ v ∈ exDiamond.par u) = ∅ :=
      Finset.filter_eq_empty_iff.mpr fun u _ h => by
        rcases h with h | h
        · exact hv (exDiamond_edge h).2
        · have := exDiamond_edge h; omega
    simp [this]

/-- A test that answers d-separation for at most two conditioning nodes and "independent" otherwise. -/
example := C94_degree ascending ascending (ci := fun c i j l => if l.length ≤ 2 then Pc.dsepTest ascending exDiamond c i j l else true) true
  exDiamond_wf exDiamond_acyclic exDiamond_degree (fun c i j l h1 h2 h3 h4 h5 h6 hl => by
    simp only [if_pos hl]
    exact C22_dsep_oracle ascending exDiamond_wf exDiamond_acyclic c i j l h1 h2 h3 h4 h5 h6)

/-- The number of parents matters: in this DAG no node has more than two neighbours, but one has two parents, and right answers for at most one
conditioning node are not enough: if all other answers are "dependent", the edge 0 – 3 is left. -/
theorem C94_sharp : Pc.PerfectUpTo (fun c i j l => if l.length ≤ 1 then Pc.dsepTest ascending exDiamond c i j l else false) exDiamond 1 ∧
    exDiamond.DSeparated 0 3 {1, 2} ∧ ∀ overwrite,
    (Pc.learnStructure ascending (fun c i j l => if l.length ≤ 1 then Pc.dsepTest ascending exDiamond c i j l else false) overwrite
      (Pc.init ascending exDiamond.nodes)).map (fun st => decide (st.graph.PAdj 0 3)) = .ok true := by
  refine ⟨fun c i j l h1 h2 h3 h4 h5 h6 hl => ?_, ?_, fun overwrite => ?_⟩
  · simp only [if_pos hl]
    exact C22_dsep_oracle ascending exDiamond_wf exDiamond_acyclic c i j l h1 h2 h3 h4 h5 h6
  · have := (C22_dsep_oracle ascending exDiamond_wf exDiamond_acyclic 0 0 3 [1, 2] (by decide) (by decide) (by decide)
      (by decide) (by decide) (by decide)).mp (by decide +kernel)
    simpa using this
  · cases overwrite <;> decide +kernel

end Verif
