import Verif.Lemmas.RaiObject
import Verif.Props.IcdObject
import Verif.Props.RaiMinimal
import Verif.Props.RaiNoCollider

/-!
# C101: RAI with the test objects of the library
-/

namespace Verif

section
variable {R R' : Type} {m : Nat} {N : Finset Int}

/-- C101 (objects): if two test objects answer alike in every history of valid queries, RAI ends with the same graph, separating sets, number
of tests, or with the same exception. -/
theorem C101_objects (o : SetOrder Int) (overwrite : Bool) (hN : ∀ x ∈ N, 0 ≤ x ∧ x < m)
    {ask : CiState R → Int → Int → List Int → Py Bool × CiState R} {ask' : CiState R' → Int → Int → List Int → Py Bool × CiState R'}
    {s : CiState R} {s' : CiState R'}
    (h : ∀ ops, (∀ x y zz, CiOp.query x y zz ∈ ops → ValidQuery m x y zz) → answers ask s ops = answers ask' s' ops) :
    (Rai.learnStructureObj o ask overwrite (Rai.init o N) s).map Prod.fst = (Rai.learnStructureObj o ask' overwrite (Rai.init o N) s').map Prod.fst := by
  rcases (Rai.learnStructureObj_sim (Pc.alike_objects hN ask ask') o overwrite h .start).same with ⟨e, h1, h2⟩ | ⟨a, s1, s2, h1, h2, -⟩
  · rw [h1, h2]; rfl
  · rw [h1, h2]; rfl

/-- C101 (answers): if the object gives the answers `f` in every history of valid queries, RAI does not raise and its result is that of the
model of C65, C66 and C95 with the test `f`. -/
theorem C101_answers (o : SetOrder Int) (overwrite : Bool) (hN : ∀ x ∈ N, 0 ≤ x ∧ x < m)
    {ask : CiState R → Int → Int → List Int → Py Bool × CiState R} {s : CiState R} {f : Int → Int → List Int → Bool}
    (h : ∀ ops, (∀ x y zz, CiOp.query x y zz ∈ ops → ValidQuery m x y zz) →
      answers ask s ops = pureAnswers (fun x y zz => .ok (f x y zz)) ops) :
    ∃ st s', Rai.learnStructureObj o ask overwrite (Rai.init o N) s = .ok (st, s') ∧
      Rai.learnStructure o (fun _ => f) overwrite (Rai.init o N) = .ok st := by
  obtain ⟨st, -, h3, -⟩ := Rai.learnStructure_spec o (fun _ => f) N overwrite
  have h4 : Rai.learnStructureObj o (Pc.ofCI fun _ => f) overwrite (Rai.init o N) 0 = _ :=
    Rai.learnStructureObj_of o (fun _ => f) overwrite (Rai.init o N)
  rw [h3] at h4
  rcases (Rai.learnStructureObj_sim (Pc.alike_answers hN ask f) o overwrite (t := 0) h
    .start).same with ⟨e, h1, h2⟩ | ⟨a, s1, s2, h1, h2, -⟩
  · rw [h4] at h2; cases h2
  · rw [h4] at h2; cases h2
    exact ⟨st, s1, h1, h3⟩

/-- C101 (cache and counter): with a statistic that does not depend on the order of its arguments, RAI ends with the same result or the same
exception whether or not results are cached and tests are counted. The first part is for tests by p-value, the second for tests by mutual information. -/
theorem C101_cache [LinearOrder R] (o : SetOrder Int) (overwrite : Bool) (hN : ∀ x ∈ N, 0 ≤ x ∧ x < m)
    {stat : Int → Int → List Int → Py R} (hs : SymTest m stat) (t : R) (U : UGraph Int) (hU : ∀ x, x ∈ U.nodes ↔ 0 ≤ x ∧ x < m)
    (countTests useCache countTests' useCache' : Bool) :
    (Rai.learnStructureObj o (statCondIndep U stat t) overwrite (Rai.init o N) (CiState.init m countTests useCache)).map Prod.fst =
      (Rai.learnStructureObj o (statCondIndep U stat t) overwrite (Rai.init o N) (CiState.init m countTests' useCache')).map Prod.fst ∧
    (Rai.learnStructureObj o (cmiCondIndep U stat t) overwrite (Rai.init o N) (CiState.init m countTests useCache)).map Prod.fst =
      (Rai.learnStructureObj o (cmiCondIndep U stat t) overwrite (Rai.init o N) (CiState.init m countTests' useCache')).map Prod.fst := by
  constructor
  · refine C101_objects o overwrite hN fun ops hops => ?_
    rw [(C39_statistic hs t U hU ops hops countTests useCache).1, (C39_statistic hs t U hU ops hops countTests' useCache').1]
  · refine C101_objects o overwrite hN fun ops hops => ?_
    rw [(C39_statistic hs t U hU ops hops countTests useCache).2, (C39_statistic hs t U hU ops hops countTests' useCache').2]

/-- RAI with a `DSep` object on a DAG, on a subset of its nodes: the result is that of the model with the true answers. -/
theorem Rai.dsep_object (o o' : SetOrder Int) (overwrite : Bool) {D : Dag Int} (hD : D.WF) (hac : D.Acyclic)
    (hn : ∀ x, x ∈ D.nodes ↔ 0 ≤ x ∧ x < m) (hO : N ⊆ D.nodes) (countTests useCache : Bool) :
    ∃ (ci : CITest Int) (st : PcState Int) (s : CiState Bool),
      (∀ k i j l, ci k i j l = true ↔ D.DSeparated i j l.toFinset) ∧
      Rai.learnStructureObj o (critCondIndep (fun x y zz => D.dsep o' x y zz.toFinset)) overwrite (Rai.init o N)
        (CiState.init m countTests useCache) = .ok (st, s) ∧
      Rai.learnStructure o ci overwrite (Rai.init o N) = .ok st := by
  classical
  obtain ⟨st, s, h1, h2⟩ := C101_answers (m := m) (N := N) o overwrite (fun x hx => (hn x).mp (hO hx))
    (ask := critCondIndep (fun x y zz => D.dsep o' x y zz.toFinset)) (s := CiState.init m countTests useCache)
    (f := fun x y zz => decide (D.DSeparated x y zz.toFinset)) (fun ops hops => by
      obtain ⟨truth, t1, t2⟩ := C39_dsep o' hD hac hn ops hops countTests useCache
      rw [t2]
      refine pureAnswers_congr (fun x y zz hv => ?_) ops hops
      congr 1
      rw [Bool.eq_iff_iff, t1 x y zz hv, decide_eq_true_iff])
  exact ⟨_, st, s, fun _ _ _ _ => decide_eq_true_iff, h1, h2⟩

/-- C101 (d-separation): RAI with a `DSep` object on a DAG of which the nodes `N` are observed, with or without cache and counter, does not
raise. For each missing edge the recorded set separates the two nodes, no proper subset of it does, and its elements are ancestors of the two nodes. -/
theorem C101_dsep (o o' : SetOrder Int) (overwrite : Bool) {D : Dag Int} (hD : D.WF) (hac : D.Acyclic)
    (hn : ∀ x, x ∈ D.nodes ↔ 0 ≤ x ∧ x < m) (hO : N ⊆ D.nodes) (countTests useCache : Bool) :
    ∃ st s, Rai.learnStructureObj o (critCondIndep (fun x y zz => D.dsep o' x y zz.toFinset)) overwrite (Rai.init o N)
        (CiState.init m countTests useCache) = .ok (st, s) ∧ ∀ i ∈ N, ∀ j ∈ N, i ≠ j → ¬ st.graph.PAdj i j →
      ∃ S, st.sep.get i j = .ok S ∧ S ⊆ N ∧ i ∉ S ∧ j ∉ S ∧ D.DSeparated i j S ∧ (∀ T ⊂ S, ¬ D.DSeparated i j T) ∧
        ∀ z ∈ S, D.DPath z i ∨ D.DPath z j := by
  obtain ⟨ci, st, s, h0, h1, h2⟩ := Rai.dsep_object (N := N) o o' overwrite hD hac hn hO countTests useCache
  obtain ⟨st', k1, k2⟩ := C95_rai_ancestors o overwrite hac (ci := ci) (O := N) (fun k i j l _ _ _ _ _ _ => h0 k i j l)
  rw [h2] at k1; cases k1
  exact ⟨st, s, h1, k2⟩

/-- C101 (d-separation, all nodes observed): no edge of the DAG is lost, pairs that are left adjacent are dependent; and if parents of a common
child are always adjacent, the result is the CPDAG. -/
theorem C101_all (o o' o'' : SetOrder Int) (overwrite : Bool) {D : Dag Int} (hD : D.WF) (hac : D.Acyclic)
    (hn : ∀ x, x ∈ D.nodes ↔ 0 ≤ x ∧ x < m) (countTests useCache : Bool) :
    ∃ st s, Rai.learnStructureObj o (critCondIndep (fun x y zz => D.dsep o' x y zz.toFinset)) overwrite (Rai.init o D.nodes)
        (CiState.init m countTests useCache) = .ok (st, s) ∧ (∀ a b, D.Adj a b → st.graph.PAdj a b) ∧
      (∀ a b, st.graph.PAdj a b → ¬ D.DSeparated a b ∅) ∧
      ((∀ a b c, D.Edge a b → D.Edge c b → a ≠ c → D.Adj a c) →
        ∃ P, D.convertToCpdag o'' [1, 2, 3] (MG.pdagEmpty D.nodes) = .ok P ∧ st.graph.Same P) := by
  obtain ⟨ci, st, s, h0, h1, h2⟩ := Rai.dsep_object o o' overwrite hD hac hn (Finset.Subset.refl _) countTests useCache
  obtain ⟨st', k1, k2, -, k3⟩ := C66_partial o overwrite hD hac (ci := ci) (fun k i j l _ _ _ _ _ _ => h0 k i j l)
  rw [h2] at k1; cases k1
  refine ⟨st, s, h1, k2, k3, fun hm => ?_⟩
  obtain ⟨st', P, k1, k4, k5, -⟩ := C66_no_collider_partial o o'' overwrite hD hac (ci := ci) (fun k i j l _ _ _ _ _ _ => h0 k i j l) hm
  rw [h2] at k1; cases k1
  exact ⟨P, k4, k5⟩

end

section
variable {m : Nat} {N : Finset Int}

/-- C101 (units): what RAI learns from continuous data with the partial-correlation test does not depend on the units of the variables, nor on
the options for caching and counting. -/
theorem C101_units {data data' : List (List ℝ)} (o : SetOrder Int) (overwrite : Bool) (hN : ∀ x ∈ N, 0 ≤ x ∧ x < m) {k c : Nat → ℝ}
    (hr : Rescaled m k c data data') (hk : ∀ v < m, k v ≠ 0) (h2 : 2 ≤ data.length) (hm : ∀ v < m, ¬ ConstantCol data v) (cdf : ℝ → ℝ)
    (nanInv nanInv' : Nat → Nat → List Nat → Py (WithBot ℝ)) {t : ℝ} (ht : 0 ≤ t) (U : UGraph Int) (hU : ∀ x, x ∈ U.nodes ↔ 0 ≤ x ∧ x < m)
    (countTests useCache countTests' useCache' : Bool) :
    (Rai.learnStructureObj o (statCondIndep U (parCorrQuery cdf nanInv' data') (t : WithBot ℝ)) overwrite (Rai.init o N)
      (CiState.init m countTests' useCache')).map Prod.fst =
    (Rai.learnStructureObj o (statCondIndep U (parCorrQuery cdf nanInv data) (t : WithBot ℝ)) overwrite (Rai.init o N)
      (CiState.init m countTests useCache)).map Prod.fst :=
  C101_objects o overwrite hN fun ops hops =>
    C83_units hr hk h2 hm cdf nanInv nanInv' ht U hU ops hops countTests useCache countTests' useCache'

/-- C101 (categorical data): RAI with the mutual-information test does not raise; its result is that of the model with the test "retained edge
or empirical conditional mutual information at most the threshold". -/
theorem C101_cmi {data : List (List Int)} (o : SetOrder Int) (overwrite : Bool) (hN : ∀ x ∈ N, 0 ≤ x ∧ x < m) (hne : data ≠ [])
    (hm : ∀ r ∈ data, r.length = m) (h0 : ∀ r ∈ data, ∀ a ∈ r, 0 ≤ a) (weights : Option (List ℝ))
    (hw : ∀ w, weights = some w → w.length = data.length ∧ ∀ a ∈ w, 0 ≤ a) (t : ℝ) (U : UGraph Int)
    (hU : ∀ x, x ∈ U.nodes ↔ 0 ≤ x ∧ x < m) (countTests useCache : Bool) :
    ∃ l st s, getVarSize data m = .ok l ∧
      Rai.learnStructureObj o (cmiCondIndep U (fun x y zz => cmiStatistic data l weights x.toNat y.toNat (zz.map Int.toNat)) t)
        overwrite (Rai.init o N) (CiState.init m countTests useCache) = .ok (st, s) ∧
      Rai.learnStructure o (fun _ x y zz => decide ((x ∈ U.adj y ∨ y ∈ U.adj x) ∨
        empiricalCmi (data.zip (weights.getD (List.replicate data.length 1))) x.toNat y.toNat (zz.map Int.toNat) ≤ t)) overwrite (Rai.init o N) =
          .ok st := by
  obtain ⟨l, h1, -⟩ := C43_cached hne hm h0 weights hw t U hU [] (by simp) countTests useCache
  obtain ⟨st, s, g1, g2⟩ := C101_answers (m := m) (N := N) o overwrite hN
    (ask := cmiCondIndep U (fun x y zz => cmiStatistic data l weights x.toNat y.toNat (zz.map Int.toNat)) t)
    (s := CiState.init m countTests useCache)
    (f := fun x y zz => decide ((x ∈ U.adj y ∨ y ∈ U.adj x) ∨
        empiricalCmi (data.zip (weights.getD (List.replicate data.length 1))) x.toNat y.toNat (zz.map Int.toNat) ≤ t)) (fun ops hops => by
      obtain ⟨l', h1', h2⟩ := C43_cached hne hm h0 weights hw t U hU ops hops countTests useCache
      rw [h1] at h1'; cases h1'
      exact h2)
  exact ⟨l, st, s, h1, g1, g2⟩

/-- C101 (exceptions): RAI raises no exception of its own. If it ends with an exception, a query about two different nodes and other nodes,
asked in a state that the test object can reach by such queries, raises it. -/
theorem C101_exceptions {α σ : Type} [LinearOrder α] (o : SetOrder α) (overwrite : Bool) (call : Pc.Call α σ) (N : Finset α) (s₀ : σ) :
    (∃ r s, Rai.learnStructureObj o call overwrite (Rai.init o N) s₀ = .ok (r, s) ∧ Pc.Reach N call s₀ s) ∨
      ∃ e s i j l, Rai.learnStructureObj o call overwrite (Rai.init o N) s₀ = .error e ∧ Pc.Reach N call s₀ s ∧ Pc.Query N i j l ∧
        (call s i j l).1 = .error e := by
  rcases (Rai.learnStructureObj_sim (Pc.alike_refl N call) o overwrite rfl .start).fine with ⟨a, s, h1, -, h2⟩ | h
  · exact Or.inl ⟨a, s, h1, h2⟩
  · exact Or.inr h

/-- C101 (no exception is swallowed): if RAI returns, no query has raised. -/
theorem C101_swallowed {α σ : Type} [LinearOrder α] (o : SetOrder α) (overwrite : Bool) (call : Pc.Call α σ) (N : Finset α) (s₀ : σ)
    {r : PcState α} {s : σ} {b : Bool}
    (h : Rai.learnStructureObj o (Pc.flagged call) overwrite (Rai.init o N) (s₀, false) = .ok (r, s, b)) : b = false := by
  rcases C101_exceptions o overwrite (Pc.flagged call) N (s₀, false) with ⟨st', s', h1, h2⟩ | ⟨e, s', i, j, l, h1, -⟩
  · rw [h] at h1; cases h1
    exact h2.unflagged rfl
  · rw [h] at h1; cases h1

/-- C101 (continuous data): on data without constant columns, RAI with the partial-correlation test ends with a result or with a LinAlgError;
the latter only if the correlation matrix of four or more variables is singular. -/
theorem C101_singular {data : List (List ℝ)} (o : SetOrder Int) (overwrite : Bool) (hN : ∀ x ∈ N, 0 ≤ x ∧ x < m)
    (h2 : 2 ≤ data.length) (hm : ∀ v < m, ¬ ConstantCol data v) (cdf : ℝ → ℝ) (nanInv : Nat → Nat → List Nat → Py (WithBot ℝ))
    (t : WithBot ℝ) (U : UGraph Int) (hU : ∀ x, x ∈ U.nodes ↔ 0 ≤ x ∧ x < m) (countTests useCache : Bool) :
    (∃ r s, Rai.learnStructureObj o (statCondIndep U (parCorrQuery cdf nanInv data) t) overwrite (Rai.init o N)
        (CiState.init m countTests useCache) = .ok (r, s)) ∨
      Rai.learnStructureObj o (statCondIndep U (parCorrQuery cdf nanInv data) t) overwrite (Rai.init o N)
        (CiState.init m countTests useCache) = .error .linAlgError ∧
      ∃ vs : List Nat, vs.Nodup ∧ 4 ≤ vs.length ∧ (∀ v ∈ vs, v < m) ∧
        (subMatrix (fun a b => (corrcoef data a b).getD 0) vs).det = 0 := by
  rcases C101_exceptions o overwrite (statCondIndep U (parCorrQuery cdf nanInv data) t) N (CiState.init m countTests useCache) with
    ⟨st, s, h, -⟩ | ⟨e, s, i, j, l, h, hr, hq, he⟩
  · exact Or.inl ⟨st, s, h⟩
  · obtain ⟨rfl, hd⟩ := Pc.parCorr_raises hN h2 hm hU hr hq he
    exact Or.inr ⟨h, hd⟩

end

/-! ## The hypotheses are met -/

example (o : SetOrder Int) (cdf : ℝ → ℝ) (nanInv : Nat → Nat → List Nat → Py (WithBot ℝ)) :=
  C101_units (m := 2) (N := {0, 1}) (k := fun v => if v = 0 then -2 else 3) (c := fun _ => 7) (data := exObs)
    (data' := [[7, 10], [5, 4], [3, 10]]) o true exNoRet_mem
    (by refine .cons ?_ (.cons ?_ (.cons ?_ .nil)) <;> intro v hv <;> obtain rfl | rfl : v = 0 ∨ v = 1 := by omega
        all_goals norm_num)
    (by intro v hv; obtain rfl | rfl : v = 0 ∨ v = 1 := by omega
        all_goals norm_num)
    (by simp [exObs]) exObs_varies cdf nanInv nanInv (t := 1 / 20) (by norm_num) exNoRet exNoRet_nodes true true false false

example (o : SetOrder Int) (cdf : ℝ → ℝ) (nanInv : Nat → Nat → List Nat → Py (WithBot ℝ)) (t : WithBot ℝ) :=
  C101_singular (m := 2) (N := {0, 1}) o false exNoRet_mem (by simp [exObs]) exObs_varies cdf nanInv t exNoRet exNoRet_nodes true true

example (o : SetOrder Int) (cdf : ℝ → ℝ) (nanInv : Nat → Nat → List Nat → Py (WithBot ℝ)) (t : WithBot ℝ) :=
  C101_cache (m := 2) (N := {0, 1}) o false exNoRet_mem
    (parCorrQuery_symm (fun v hv h => exObs_varies v hv ((covOf_self_eq_zero (by simp [exObs])).mp h)) cdf nanInv) t exNoRet exNoRet_nodes
    true true false true

example (o : SetOrder Int) :=
  C101_cmi (m := 2) (N := {0, 1}) (data := [[0, 1], [1, 0], [2, 1]]) o true exNoRet_mem (by simp) (by decide) (by decide) none (by simp)
    (1 / 100) exNoRet exNoRet_nodes true true

/-- The common cause is latent. -/
example (o o' : SetOrder Int) := C101_dsep (N := {1, 2}) o o' true exFork_wf exFork_acyclic exFork_nodes (by decide) true true

example (o o' o'' : SetOrder Int) := C101_all o o' o'' false exFork_wf exFork_acyclic exFork_nodes true false

/-- A test that raises at its second call: the exception is passed on. A test that would raise at its tenth call is not asked so often. -/
example :
    (Rai.learnStructureObj ascending (fun (k : Nat) _ _ _ => if k = 1 then (.error .linAlgError, k + 1) else (.ok false, k + 1))
      true (Rai.init ascending {0, 1, 2}) 0).map (fun _ => ()) = .error .linAlgError ∧
    (Rai.learnStructureObj ascending (Pc.flagged fun (k : Nat) _ _ _ => if k = 9 then (.error .linAlgError, k + 1) else (.ok false, k + 1))
      true (Rai.init ascending {0, 1, 2}) (0, false)).map (fun r => r.2) = .ok (6, false) := by
  constructor <;> decide +kernel

end Verif
