import Verif.Lemmas.FciObject
import Verif.Props.PcObject
import Verif.Props.FciOne
import Verif.Props.PagEssential

/-!
# C99: FCI with the test objects of the library
-/

namespace Verif

section
variable {R R' : Type} {m : Nat} {N : Finset Int}

/-- C99 (objects): if two test objects answer alike in every history of valid queries, FCI ends with the same graph, separating sets, number
of tests and flag, or with the same exception. -/
theorem C99_objects (o : SetOrder Int) (selection tails : Bool) (hN : ∀ x ∈ N, 0 ≤ x ∧ x < m)
    {ask : CiState R → Int → Int → List Int → Py Bool × CiState R} {ask' : CiState R' → Int → Int → List Int → Py Bool × CiState R'}
    {s : CiState R} {s' : CiState R'}
    (h : ∀ ops, (∀ x y zz, CiOp.query x y zz ∈ ops → ValidQuery m x y zz) → answers ask s ops = answers ask' s' ops) :
    (Fci.learnStructureObj o ask selection tails N s).map Prod.fst = (Fci.learnStructureObj o ask' selection tails N s').map Prod.fst := by
  rcases Fci.learnStructureObj_same (Pc.alike_objects hN ask ask') o selection tails h with ⟨e, h1, h2⟩ | ⟨a, s1, s2, h1, h2, -⟩
  · rw [h1, h2]; rfl
  · rw [h1, h2]; rfl

/-- C99 (answers): if the object gives the answers `f` in every history of valid queries, FCI does not raise and its result is that of the
model of C49, C76, C90 and C93 with the test `f`. -/
theorem C99_answers (o : SetOrder Int) (selection tails : Bool) (hN : ∀ x ∈ N, 0 ≤ x ∧ x < m)
    {ask : CiState R → Int → Int → List Int → Py Bool × CiState R} {s : CiState R} {f : Int → Int → List Int → Bool}
    (h : ∀ ops, (∀ x y zz, CiOp.query x y zz ∈ ops → ValidQuery m x y zz) →
      answers ask s ops = pureAnswers (fun x y zz => .ok (f x y zz)) ops) :
    ∃ st found s', Fci.learnStructureObj o ask selection tails N s = .ok ((st, found), s') ∧
      Fci.learnStructure o (fun _ => f) selection tails N = .ok (st, found) := by
  obtain ⟨-, st, found, -, h3, -⟩ := C49_fci o (fun _ => f) selection tails N
  have h4 := Fci.learnStructureObj_of o (fun _ => f) selection tails N
  rw [h3] at h4
  rcases Fci.learnStructureObj_same (Pc.alike_answers hN ask f) o selection tails (t := 0) h with ⟨e, h1, h2⟩ | ⟨a, s1, s2, h1, h2, -⟩
  · rw [h4] at h2; cases h2
  · rw [h4] at h2; cases h2
    exact ⟨st, found, s1, h1, h3⟩

/-- C99 (cache and counter): with a statistic that does not depend on the order of its arguments, FCI ends with the same result or the same
exception whether or not results are cached and tests are counted. The first part is for tests by p-value, the second for tests by mutual information. -/
theorem C99_cache [LinearOrder R] (o : SetOrder Int) (selection tails : Bool) (hN : ∀ x ∈ N, 0 ≤ x ∧ x < m)
    {stat : Int → Int → List Int → Py R} (hs : SymTest m stat) (t : R) (U : UGraph Int) (hU : ∀ x, x ∈ U.nodes ↔ 0 ≤ x ∧ x < m)
    (countTests useCache countTests' useCache' : Bool) :
    (Fci.learnStructureObj o (statCondIndep U stat t) selection tails N (CiState.init m countTests useCache)).map Prod.fst =
      (Fci.learnStructureObj o (statCondIndep U stat t) selection tails N (CiState.init m countTests' useCache')).map Prod.fst ∧
    (Fci.learnStructureObj o (cmiCondIndep U stat t) selection tails N (CiState.init m countTests useCache)).map Prod.fst =
      (Fci.learnStructureObj o (cmiCondIndep U stat t) selection tails N (CiState.init m countTests' useCache')).map Prod.fst := by
  constructor
  · refine C99_objects o selection tails hN fun ops hops => ?_
    rw [(C39_statistic hs t U hU ops hops countTests useCache).1, (C39_statistic hs t U hU ops hops countTests' useCache').1]
  · refine C99_objects o selection tails hN fun ops hops => ?_
    rw [(C39_statistic hs t U hU ops hops countTests useCache).2, (C39_statistic hs t U hU ops hops countTests' useCache').2]

/-- FCI with a `DSep` object on a DAG, on a subset of its nodes: the result is that of the model with the true answers. -/
theorem Fci.dsep_object (o o' : SetOrder Int) (selection tails : Bool) {D : Dag Int} (hD : D.WF) (hac : D.Acyclic)
    (hn : ∀ x, x ∈ D.nodes ↔ 0 ≤ x ∧ x < m) (hO : N ⊆ D.nodes) (countTests useCache : Bool) :
    ∃ (ci : CITest Int) (st : PcState Int) (found : Bool) (s : CiState Bool),
      (∀ k i j l, ci k i j l = true ↔ D.DSeparated i j l.toFinset) ∧
      Fci.learnStructureObj o (critCondIndep (fun x y zz => D.dsep o' x y zz.toFinset)) selection tails N
        (CiState.init m countTests useCache) = .ok ((st, found), s) ∧
      Fci.learnStructure o ci selection tails N = .ok (st, found) := by
  classical
  obtain ⟨st, found, s, h1, h2⟩ := C99_answers (m := m) (N := N) o selection tails (fun x hx => (hn x).mp (hO hx))
    (ask := critCondIndep (fun x y zz => D.dsep o' x y zz.toFinset)) (s := CiState.init m countTests useCache)
    (f := fun x y zz => decide (D.DSeparated x y zz.toFinset)) (fun ops hops => by
      obtain ⟨truth, t1, t2⟩ := C39_dsep o' hD hac hn ops hops countTests useCache
      rw [t2]
      refine pureAnswers_congr (fun x y zz hv => ?_) ops hops
      congr 1
      rw [Bool.eq_iff_iff, t1 x y zz hv, decide_eq_true_iff])
  exact ⟨_, st, found, s, fun _ _ _ _ => decide_eq_true_iff, h1, h2⟩

/-- C99 (d-separation): FCI with a `DSep` object on a DAG whose nodes are all observed, with or without cache and counter, does not raise, finds
the skeleton of the DAG, and places an arrowhead exactly where every Markov equivalent DAG has one. -/
theorem C99_dsep (o o' : SetOrder Int) (selection tails : Bool) {D : Dag Int} (hD : D.WF) (hac : D.Acyclic)
    (hn : ∀ x, x ∈ D.nodes ↔ 0 ≤ x ∧ x < m) (countTests useCache : Bool) :
    ∃ st s, Fci.learnStructureObj o (critCondIndep (fun x y zz => D.dsep o' x y zz.toFinset)) selection tails D.nodes
        (CiState.init m countTests useCache) = .ok ((st, false), s) ∧ (∀ a b, st.graph.MAdj a b ↔ D.Adj a b) ∧
      ∀ a b, st.graph.At a b .arrow ↔ ∀ H : Dag Int, D.Equivalent H → H.Edge a b := by
  obtain ⟨ci, st, found, s, h0, h1, h2⟩ := Fci.dsep_object o o' selection tails hD hac hn (Finset.Subset.refl _) countTests useCache
  obtain ⟨st', k1, k2, k3⟩ := C90_fci o selection tails hD hac (ci := ci) (fun k i j l _ _ _ _ _ _ => h0 k i j l)
  rw [h2] at k1; cases k1
  exact ⟨st, s, h1, k2, k3⟩

/-- C99 (latent variables): FCI with a `DSep` object on a DAG of which the nodes `N` are observed does not raise; no pair that cannot be
separated loses its edge; and if every separable pair is separated by at most one node, the adjacencies, the arrowheads and the unshielded
colliders are right. -/
theorem C99_latent (o o' : SetOrder Int) (selection tails : Bool) {D : Dag Int} (hD : D.WF) (hac : D.Acyclic)
    (hn : ∀ x, x ∈ D.nodes ↔ 0 ≤ x ∧ x < m) (hO : N ⊆ D.nodes) (countTests useCache : Bool) :
    ∃ st found s, Fci.learnStructureObj o (critCondIndep (fun x y zz => D.dsep o' x y zz.toFinset)) selection tails N
        (CiState.init m countTests useCache) = .ok ((st, found), s) ∧
      (∀ a ∈ N, ∀ b ∈ N, a ≠ b → D.Insep N a b → st.graph.MAdj a b) ∧
      (D.OneSep N → (∀ a b, st.graph.MAdj a b ↔ a ∈ N ∧ b ∈ N ∧ a ≠ b ∧ D.Insep N a b) ∧ D.ArrowsTrue st.graph ∧
        D.CollidersFound N st.graph) := by
  obtain ⟨ci, st, found, s, h0, h1, h2⟩ := Fci.dsep_object (N := N) o o' selection tails hD hac hn hO countTests useCache
  have hp : Pc.PerfectOn ci D N := fun k i j l _ _ _ _ _ _ => h0 k i j l
  obtain ⟨st', found', k1, k2, -⟩ := C76_fci_partial o selection tails hac hp
  rw [h2] at k1; cases k1
  refine ⟨st, found, s, h1, k2, fun h => ?_⟩
  obtain ⟨st', found', k1, -, -, k3, k4, k5, -⟩ := C76_one_partial o selection tails hac hp h
  rw [h2] at k1; cases k1
  exact ⟨k3, k4, k5⟩

end

section
variable {m : Nat} {N : Finset Int}

/-- C99 (units): what FCI learns from continuous data with the partial-correlation test does not depend on the units of the variables, nor on
the options for caching and counting. -/
theorem C99_units {data data' : List (List ℝ)} (o : SetOrder Int) (selection tails : Bool) (hN : ∀ x ∈ N, 0 ≤ x ∧ x < m) {k c : Nat → ℝ}
    (hr : Rescaled m k c data data') (hk : ∀ v < m, k v ≠ 0) (h2 : 2 ≤ data.length) (hm : ∀ v < m, ¬ ConstantCol data v) (cdf : ℝ → ℝ)
    (nanInv nanInv' : Nat → Nat → List Nat → Py (WithBot ℝ)) {t : ℝ} (ht : 0 ≤ t) (U : UGraph Int) (hU : ∀ x, x ∈ U.nodes ↔ 0 ≤ x ∧ x < m)
    (countTests useCache countTests' useCache' : Bool) :
    (Fci.learnStructureObj o (statCondIndep U (parCorrQuery cdf nanInv' data') (t : WithBot ℝ)) selection tails N
      (CiState.init m countTests' useCache')).map Prod.fst =
    (Fci.learnStructureObj o (statCondIndep U (parCorrQuery cdf nanInv data) (t : WithBot ℝ)) selection tails N
      (CiState.init m countTests useCache)).map Prod.fst :=
  C99_objects o selection tails hN fun ops hops =>
    C83_units hr hk h2 hm cdf nanInv nanInv' ht U hU ops hops countTests useCache countTests' useCache'

/-- C99 (categorical data): FCI with the mutual-information test does not raise; its result is that of the model with the test "retained edge
or empirical conditional mutual information at most the threshold". -/
theorem C99_cmi {data : List (List Int)} (o : SetOrder Int) (selection tails : Bool) (hN : ∀ x ∈ N, 0 ≤ x ∧ x < m) (hne : data ≠ [])
    (hm : ∀ r ∈ data, r.length = m) (h0 : ∀ r ∈ data, ∀ a ∈ r, 0 ≤ a) (weights : Option (List ℝ))
    (hw : ∀ w, weights = some w → w.length = data.length ∧ ∀ a ∈ w, 0 ≤ a) (t : ℝ) (U : UGraph Int)
    (hU : ∀ x, x ∈ U.nodes ↔ 0 ≤ x ∧ x < m) (countTests useCache : Bool) :
    ∃ l st found s, getVarSize data m = .ok l ∧
      Fci.learnStructureObj o (cmiCondIndep U (fun x y zz => cmiStatistic data l weights x.toNat y.toNat (zz.map Int.toNat)) t)
        selection tails N (CiState.init m countTests useCache) = .ok ((st, found), s) ∧
      Fci.learnStructure o (fun _ x y zz => decide ((x ∈ U.adj y ∨ y ∈ U.adj x) ∨
        empiricalCmi (data.zip (weights.getD (List.replicate data.length 1))) x.toNat y.toNat (zz.map Int.toNat) ≤ t)) selection tails N =
          .ok (st, found) := by
  obtain ⟨l, h1, -⟩ := C43_cached hne hm h0 weights hw t U hU [] (by simp) countTests useCache
  obtain ⟨st, found, s, g1, g2⟩ := C99_answers (m := m) (N := N) o selection tails hN
    (ask := cmiCondIndep U (fun x y zz => cmiStatistic data l weights x.toNat y.toNat (zz.map Int.toNat)) t)
    (s := CiState.init m countTests useCache)
    (f := fun x y zz => decide ((x ∈ U.adj y ∨ y ∈ U.adj x) ∨
        empiricalCmi (data.zip (weights.getD (List.replicate data.length 1))) x.toNat y.toNat (zz.map Int.toNat) ≤ t)) (fun ops hops => by
      obtain ⟨l', h1', h2⟩ := C43_cached hne hm h0 weights hw t U hU ops hops countTests useCache
      rw [h1] at h1'; cases h1'
      exact h2)
  exact ⟨l, st, found, s, h1, g1, g2⟩

/-- C99 (exceptions): FCI raises no exception of its own. If it ends with an exception, a query about two different nodes and other nodes,
asked in a state that the test object can reach by such queries, raises it. -/
theorem C99_exceptions {α σ : Type} [LinearOrder α] (o : SetOrder α) (selection tails : Bool) (call : Pc.Call α σ) (N : Finset α) (s₀ : σ) :
    (∃ r s, Fci.learnStructureObj o call selection tails N s₀ = .ok (r, s) ∧ Pc.Reach N call s₀ s) ∨
      ∃ e s i j l, Fci.learnStructureObj o call selection tails N s₀ = .error e ∧ Pc.Reach N call s₀ s ∧ Pc.Query N i j l ∧
        (call s i j l).1 = .error e := by
  rcases Fci.learnStructureObj_fine (call := call) o selection tails N s₀ with ⟨a, s, h1, -, h2⟩ | h
  · exact Or.inl ⟨a, s, h1, h2⟩
  · exact Or.inr h

/-- C99 (no exception is swallowed): if FCI returns, no query has raised. -/
theorem C99_swallowed {α σ : Type} [LinearOrder α] (o : SetOrder α) (selection tails : Bool) (call : Pc.Call α σ) (N : Finset α) (s₀ : σ)
    {r : PcState α × Bool} {s : σ} {b : Bool}
    (h : Fci.learnStructureObj o (Pc.flagged call) selection tails N (s₀, false) = .ok (r, s, b)) : b = false := by
  rcases C99_exceptions o selection tails (Pc.flagged call) N (s₀, false) with ⟨st', s', h1, h2⟩ | ⟨e, s', i, j, l, h1, -⟩
  · rw [h] at h1; cases h1
    exact h2.unflagged rfl
  · rw [h] at h1; cases h1

/-- C99 (continuous data): on data without constant columns, FCI with the partial-correlation test ends with a result or with a LinAlgError;
the latter only if the correlation matrix of four or more variables is singular. -/
theorem C99_singular {data : List (List ℝ)} (o : SetOrder Int) (selection tails : Bool) (hN : ∀ x ∈ N, 0 ≤ x ∧ x < m)
    (h2 : 2 ≤ data.length) (hm : ∀ v < m, ¬ ConstantCol data v) (cdf : ℝ → ℝ) (nanInv : Nat → Nat → List Nat → Py (WithBot ℝ))
    (t : WithBot ℝ) (U : UGraph Int) (hU : ∀ x, x ∈ U.nodes ↔ 0 ≤ x ∧ x < m) (countTests useCache : Bool) :
    (∃ r s, Fci.learnStructureObj o (statCondIndep U (parCorrQuery cdf nanInv data) t) selection tails N
        (CiState.init m countTests useCache) = .ok (r, s)) ∨
      Fci.learnStructureObj o (statCondIndep U (parCorrQuery cdf nanInv data) t) selection tails N
        (CiState.init m countTests useCache) = .error .linAlgError ∧
      ∃ vs : List Nat, vs.Nodup ∧ 4 ≤ vs.length ∧ (∀ v ∈ vs, v < m) ∧
        (subMatrix (fun a b => (corrcoef data a b).getD 0) vs).det = 0 := by
  rcases C99_exceptions o selection tails (statCondIndep U (parCorrQuery cdf nanInv data) t) N (CiState.init m countTests useCache) with
    ⟨st, s, h, -⟩ | ⟨e, s, i, j, l, h, hr, hq, he⟩
  · exact Or.inl ⟨st, s, h⟩
  · obtain ⟨rfl, hd⟩ := Pc.parCorr_raises hN h2 hm hU hr hq he
    exact Or.inr ⟨h, hd⟩

end

/-! ## The hypotheses are met -/

theorem exNoRet_mem (x : Int) (h : x ∈ ({0, 1} : Finset Int)) : 0 ≤ x ∧ x < (2 : Nat) := (exNoRet_nodes x).mp h

example (o : SetOrder Int) (cdf : ℝ → ℝ) (nanInv : Nat → Nat → List Nat → Py (WithBot ℝ)) :=
  C99_units (m := 2) (N := {0, 1}) (k := fun v => if v = 0 then -2 else 3) (c := fun _ => 7) (data := exObs)
    (data' := [[7, 10], [5, 4], [3, 10]]) o true true exNoRet_mem
    (by refine .cons ?_ (.cons ?_ (.cons ?_ .nil)) <;> intro v hv <;> obtain rfl | rfl : v = 0 ∨ v = 1 := by omega
        all_goals norm_num)
    (by intro v hv; obtain rfl | rfl : v = 0 ∨ v = 1 := by omega
        all_goals norm_num)
    (by simp [exObs]) exObs_varies cdf nanInv nanInv (t := 1 / 20) (by norm_num) exNoRet exNoRet_nodes true true false false

example (o : SetOrder Int) (cdf : ℝ → ℝ) (nanInv : Nat → Nat → List Nat → Py (WithBot ℝ)) (t : WithBot ℝ) :=
  C99_singular (m := 2) (N := {0, 1}) o false true exNoRet_mem (by simp [exObs]) exObs_varies cdf nanInv t exNoRet exNoRet_nodes true true

example (o : SetOrder Int) (cdf : ℝ → ℝ) (nanInv : Nat → Nat → List Nat → Py (WithBot ℝ)) (t : WithBot ℝ) :=
  C99_cache (m := 2) (N := {0, 1}) o false true exNoRet_mem
    (parCorrQuery_symm (fun v hv h => exObs_varies v hv ((covOf_self_eq_zero (by simp [exObs])).mp h)) cdf nanInv) t exNoRet exNoRet_nodes
    true true false true

example (o : SetOrder Int) :=
  C99_cmi (m := 2) (N := {0, 1}) (data := [[0, 1], [1, 0], [2, 1]]) o true true exNoRet_mem (by simp) (by decide) (by decide) none (by simp)
    (1 / 100) exNoRet exNoRet_nodes true true

/-- A common cause of two variables. -/
def exFork : Dag Int := ⟨{0, 1, 2}, fun v => if v = 1 ∨ v = 2 then {0} else ∅⟩

theorem exFork_edge {a b : Int} (h : exFork.Edge a b) : a = 0 ∧ (b = 1 ∨ b = 2) := by
  change a ∈ (if b = 1 ∨ b = 2 then ({0} : Finset Int) else ∅) at h
  split_ifs at h with hb
  · exact ⟨Finset.mem_singleton.mp h, hb⟩
  · simp at h

theorem exFork_wf : exFork.WF := by
  intro a b h
  obtain ⟨rfl, rfl | rfl⟩ := exFork_edge h <;> decide

theorem exFork_acyclic : exFork.Acyclic := by
  intro v h
  have key : ∀ a b : Int, Relation.TransGen exFork.Edge a b → a < b := by
    intro a b h
    induction h with
    | single h => obtain ⟨rfl, rfl | rfl⟩ := exFork_edge h <;> decide
    | tail _ h ih => refine lt_trans ih ?_; obtain ⟨rfl, rfl | rfl⟩ := exFork_edge h <;> decide
  exact lt_irrefl _ (key v v h)

theorem exFork_nodes (x : Int) : x ∈ exFork.nodes ↔ 0 ≤ x ∧ x < (3 : Nat) := by
  simp only [exFork, Finset.mem_insert, Finset.mem_singleton]
  omega

example (o o' : SetOrder Int) := C99_dsep o o' true true exFork_wf exFork_acyclic exFork_nodes true true

/-- The common cause is latent. -/
example (o o' : SetOrder Int) := C99_latent (N := {1, 2}) o o' true true exFork_wf exFork_acyclic exFork_nodes (by decide) true false

/-- A test that raises at its second call, in the refinement stage: the exception is passed on. With three calls the fourth is not reached. -/
example :
    (Fci.learnStructureObj ascending (fun (k : Nat) _ _ _ => if k = 1 then (.error .linAlgError, k + 1) else (.ok false, k + 1)) true true
      {0, 1} 0).map (fun _ => ()) = .error .linAlgError ∧
    (Fci.learnStructureObj ascending (Pc.flagged fun (k : Nat) _ _ _ => if k = 3 then (.error .linAlgError, k + 1) else (.ok false, k + 1))
      true true {0, 1} (0, false)).map (fun r => r.2) = .ok (3, false) := by
  constructor <;> decide +kernel

end Verif
