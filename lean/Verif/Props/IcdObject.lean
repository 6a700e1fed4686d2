import Verif.Lemmas.IcdObject
import Verif.Props.FciObject
import Verif.Props.PagEssential

/-!
# C100: ICD with the test objects of the library
-/

namespace Verif

section
variable {R R' : Type} {m : Nat} {N : Finset Int}

/-- C100 (objects): if two test objects answer alike in every history of valid queries, ICD ends with the same graph, separating sets, number
of tests, or with the same exception. -/
theorem C100_objects (o : SetOrder Int) (opts : IcdOpts) (hN : ∀ x ∈ N, 0 ≤ x ∧ x < m)
    {ask : CiState R → Int → Int → List Int → Py Bool × CiState R} {ask' : CiState R' → Int → Int → List Int → Py Bool × CiState R'}
    {s : CiState R} {s' : CiState R'}
    (h : ∀ ops, (∀ x y zz, CiOp.query x y zz ∈ ops → ValidQuery m x y zz) → answers ask s ops = answers ask' s' ops) :
    (Icd.learnStructureObj o ask opts (Icd.init o N) s).map Prod.fst = (Icd.learnStructureObj o ask' opts (Icd.init o N) s').map Prod.fst := by
  rcases (Icd.learnStructureObj_sim (Pc.alike_objects hN ask ask') o opts (Icd.init_inv o Icd.yes N) h .start).same with ⟨e, h1, h2⟩ | ⟨a, s1, s2, h1, h2, -⟩
  · rw [h1, h2]; rfl
  · rw [h1, h2]; rfl

/-- C100 (answers): if the object gives the answers `f` in every history of valid queries, ICD does not raise and its result is that of the
model of C49, C74, C90 and C94 with the test `f`. -/
theorem C100_answers (o : SetOrder Int) (opts : IcdOpts) (hN : ∀ x ∈ N, 0 ≤ x ∧ x < m)
    {ask : CiState R → Int → Int → List Int → Py Bool × CiState R} {s : CiState R} {f : Int → Int → List Int → Bool}
    (h : ∀ ops, (∀ x y zz, CiOp.query x y zz ∈ ops → ValidQuery m x y zz) →
      answers ask s ops = pureAnswers (fun x y zz => .ok (f x y zz)) ops) :
    ∃ st s', Icd.learnStructureObj o ask opts (Icd.init o N) s = .ok (st, s') ∧
      Icd.learnStructure o (fun _ => f) opts (Icd.init o N) = .ok st := by
  obtain ⟨st, h3, -⟩ := Icd.learnStructure_spec o (ci := fun _ => f) opts (Icd.init_inv o (fun _ => f) N)
  have h4 : Icd.learnStructureObj o (Pc.ofCI fun _ => f) opts (Icd.init o N) 0 = _ :=
    Icd.learnStructureObj_of o (fun _ => f) opts (Icd.init o N)
  rw [h3] at h4
  rcases (Icd.learnStructureObj_sim (Pc.alike_answers hN ask f) o opts (Icd.init_inv o Icd.yes N) (t := 0) h
    .start).same with ⟨e, h1, h2⟩ | ⟨a, s1, s2, h1, h2, -⟩
  · rw [h4] at h2; cases h2
  · rw [h4] at h2; cases h2
    exact ⟨st, s1, h1, h3⟩

/-- C100 (cache and counter): with a statistic that does not depend on the order of its arguments, ICD ends with the same result or the same
exception whether or not results are cached and tests are counted. The first part is for tests by p-value, the second for tests by mutual information. -/
theorem C100_cache [LinearOrder R] (o : SetOrder Int) (opts : IcdOpts) (hN : ∀ x ∈ N, 0 ≤ x ∧ x < m)
    {stat : Int → Int → List Int → Py R} (hs : SymTest m stat) (t : R) (U : UGraph Int) (hU : ∀ x, x ∈ U.nodes ↔ 0 ≤ x ∧ x < m)
    (countTests useCache countTests' useCache' : Bool) :
    (Icd.learnStructureObj o (statCondIndep U stat t) opts (Icd.init o N) (CiState.init m countTests useCache)).map Prod.fst =
      (Icd.learnStructureObj o (statCondIndep U stat t) opts (Icd.init o N) (CiState.init m countTests' useCache')).map Prod.fst ∧
    (Icd.learnStructureObj o (cmiCondIndep U stat t) opts (Icd.init o N) (CiState.init m countTests useCache)).map Prod.fst =
      (Icd.learnStructureObj o (cmiCondIndep U stat t) opts (Icd.init o N) (CiState.init m countTests' useCache')).map Prod.fst := by
  constructor
  · refine C100_objects o opts hN fun ops hops => ?_
    rw [(C39_statistic hs t U hU ops hops countTests useCache).1, (C39_statistic hs t U hU ops hops countTests' useCache').1]
  · refine C100_objects o opts hN fun ops hops => ?_
    rw [(C39_statistic hs t U hU ops hops countTests useCache).2, (C39_statistic hs t U hU ops hops countTests' useCache').2]

/-- C100 (`find_true_pag`, `performance_measures.py:10-14`): ICD with its default options and a `DSep` object on a DAG, with or without
cache and counter, learns the graph of the model of C74, C81 and C90. -/
theorem C100_true_pag (o : SetOrder Int) {D : Dag Int} (hD : D.WF) (hac : D.Acyclic) (hn : ∀ x, x ∈ D.nodes ↔ 0 ≤ x ∧ x < m)
    (hO : N ⊆ D.nodes) (countTests useCache : Bool) :
    ∃ st s, Icd.learnStructureObj o (critCondIndep (fun x y zz => D.dsep o x y zz.toFinset)) ⟨false, true, true⟩ (Icd.init o N)
        (CiState.init m countTests useCache) = .ok (st, s) ∧ findTruePag o D N = .ok st.graph := by
  obtain ⟨st, s, h1, h2⟩ := C100_answers (m := m) (N := N) o ⟨false, true, true⟩ (fun x hx => (hn x).mp (hO hx))
    (ask := critCondIndep (fun x y zz => D.dsep o x y zz.toFinset)) (s := CiState.init m countTests useCache)
    (f := Pc.dsepTest o D 0) (fun ops hops => by
      obtain ⟨truth, t1, t2⟩ := C39_dsep o hD hac hn ops hops countTests useCache
      rw [t2]
      refine pureAnswers_congr (fun x y zz hv => ?_) ops hops
      congr 1
      rw [Bool.eq_iff_iff, t1 x y zz hv]
      obtain ⟨⟨hx, hx', hy, hy', hxy⟩, -, hz⟩ := hv
      exact (Pc.dsepTest_perfectOn o hD hac (Finset.Subset.refl _) 0 x y zz ((hn x).mpr ⟨hx, hx'⟩) ((hn y).mpr ⟨hy, hy'⟩) hxy
        (fun h => (hz x h).2.2.1 rfl) (fun h => (hz y h).2.2.2 rfl) (fun z h => (hn z).mpr ⟨(hz z h).1, (hz z h).2.1⟩)).symm)
  refine ⟨st, s, h1, ?_⟩
  have h3 : Icd.learnStructure o (Pc.dsepTest o D) ⟨false, true, true⟩ (Icd.init o N) = .ok st := h2
  rw [findTruePag, h3]
  rfl

/-- ICD with a `DSep` object on a DAG, on a subset of its nodes: the result is that of the model with the true answers. -/
theorem Icd.dsep_object (o o' : SetOrder Int) (opts : IcdOpts) {D : Dag Int} (hD : D.WF) (hac : D.Acyclic)
    (hn : ∀ x, x ∈ D.nodes ↔ 0 ≤ x ∧ x < m) (hO : N ⊆ D.nodes) (countTests useCache : Bool) :
    ∃ (ci : CITest Int) (st : IcdState Int) (s : CiState Bool),
      (∀ k i j l, ci k i j l = true ↔ D.DSeparated i j l.toFinset) ∧
      Icd.learnStructureObj o (critCondIndep (fun x y zz => D.dsep o' x y zz.toFinset)) opts (Icd.init o N)
        (CiState.init m countTests useCache) = .ok (st, s) ∧
      Icd.learnStructure o ci opts (Icd.init o N) = .ok st := by
  classical
  obtain ⟨st, s, h1, h2⟩ := C100_answers (m := m) (N := N) o opts (fun x hx => (hn x).mp (hO hx))
    (ask := critCondIndep (fun x y zz => D.dsep o' x y zz.toFinset)) (s := CiState.init m countTests useCache)
    (f := fun x y zz => decide (D.DSeparated x y zz.toFinset)) (fun ops hops => by
      obtain ⟨truth, t1, t2⟩ := C39_dsep o' hD hac hn ops hops countTests useCache
      rw [t2]
      refine pureAnswers_congr (fun x y zz hv => ?_) ops hops
      congr 1
      rw [Bool.eq_iff_iff, t1 x y zz hv, decide_eq_true_iff])
  exact ⟨_, st, s, fun _ _ _ _ => decide_eq_true_iff, h1, h2⟩

/-- C100 (d-separation): ICD with a `DSep` object on a DAG whose nodes are all observed and have at most two parents each, with or without
cache and counter, does not raise, finds the skeleton of the DAG, and places an arrowhead exactly where every Markov equivalent DAG has one. -/
theorem C100_dsep (o o' : SetOrder Int) (opts : IcdOpts) {D : Dag Int} (hD : D.WF) (hac : D.Acyclic)
    (hn : ∀ x, x ∈ D.nodes ↔ 0 ≤ x ∧ x < m) (hdeg : ∀ v, (D.par v).card ≤ 2) (countTests useCache : Bool) :
    ∃ st s, Icd.learnStructureObj o (critCondIndep (fun x y zz => D.dsep o' x y zz.toFinset)) opts (Icd.init o D.nodes)
        (CiState.init m countTests useCache) = .ok (st, s) ∧ (∀ a b, st.graph.MAdj a b ↔ D.Adj a b) ∧
      ∀ a b, st.graph.At a b .arrow ↔ ∀ H : Dag Int, D.Equivalent H → H.Edge a b := by
  obtain ⟨ci, st, s, h0, h1, h2⟩ := Icd.dsep_object o o' opts hD hac hn (Finset.Subset.refl _) countTests useCache
  obtain ⟨st', k1, k2, k3⟩ := C90_icd_degree o opts hD hac (ci := ci) (fun k i j l _ _ _ _ _ _ => h0 k i j l) hdeg
  rw [h2] at k1; cases k1
  exact ⟨st, s, h1, k2, k3⟩

/-- C100 (latent variables): ICD with a `DSep` object on a DAG of which the nodes `N` are observed does not raise; no pair that cannot be
separated loses its edge; and if every pair that is left adjacent cannot be separated, the arrowheads and the unshielded colliders are right. -/
theorem C100_latent (o o' : SetOrder Int) (opts : IcdOpts) {D : Dag Int} (hD : D.WF) (hac : D.Acyclic)
    (hn : ∀ x, x ∈ D.nodes ↔ 0 ≤ x ∧ x < m) (hO : N ⊆ D.nodes) (countTests useCache : Bool) :
    ∃ st s, Icd.learnStructureObj o (critCondIndep (fun x y zz => D.dsep o' x y zz.toFinset)) opts (Icd.init o N)
        (CiState.init m countTests useCache) = .ok (st, s) ∧
      (∀ a ∈ N, ∀ b ∈ N, a ≠ b → D.Insep N a b → st.graph.MAdj a b) ∧
      ((∀ a b, st.graph.MAdj a b → D.Insep N a b) → D.ArrowsTrue st.graph ∧ D.CollidersFound N st.graph) := by
  obtain ⟨ci, st, s, h0, h1, h2⟩ := Icd.dsep_object (N := N) o o' opts hD hac hn hO countTests useCache
  have hp : Pc.PerfectOn ci D N := fun k i j l _ _ _ _ _ _ => h0 k i j l
  obtain ⟨-, st', k1, -, -, k2, k3⟩ := C74_icd_partial hac hp (.refl : Icd.Reachable o ci opts N (Icd.init o N))
  rw [h2] at k1; cases k1
  exact ⟨st, s, h1, k2, fun h => ⟨(k3 h).1, (k3 h).2.1⟩⟩

end

section
variable {m : Nat} {N : Finset Int}

/-- C100 (units): what ICD learns from continuous data with the partial-correlation test does not depend on the units of the variables, nor on
the options for caching and counting. -/
theorem C100_units {data data' : List (List ℝ)} (o : SetOrder Int) (opts : IcdOpts) (hN : ∀ x ∈ N, 0 ≤ x ∧ x < m) {k c : Nat → ℝ}
    (hr : Rescaled m k c data data') (hk : ∀ v < m, k v ≠ 0) (h2 : 2 ≤ data.length) (hm : ∀ v < m, ¬ ConstantCol data v) (cdf : ℝ → ℝ)
    (nanInv nanInv' : Nat → Nat → List Nat → Py (WithBot ℝ)) {t : ℝ} (ht : 0 ≤ t) (U : UGraph Int) (hU : ∀ x, x ∈ U.nodes ↔ 0 ≤ x ∧ x < m)
    (countTests useCache countTests' useCache' : Bool) :
    (Icd.learnStructureObj o (statCondIndep U (parCorrQuery cdf nanInv' data') (t : WithBot ℝ)) opts (Icd.init o N)
      (CiState.init m countTests' useCache')).map Prod.fst =
    (Icd.learnStructureObj o (statCondIndep U (parCorrQuery cdf nanInv data) (t : WithBot ℝ)) opts (Icd.init o N)
      (CiState.init m countTests useCache)).map Prod.fst :=
  C100_objects o opts hN fun ops hops =>
    C83_units hr hk h2 hm cdf nanInv nanInv' ht U hU ops hops countTests useCache countTests' useCache'

/-- C100 (categorical data): ICD with the mutual-information test does not raise; its result is that of the model with the test "retained edge
or empirical conditional mutual information at most the threshold". -/
theorem C100_cmi {data : List (List Int)} (o : SetOrder Int) (opts : IcdOpts) (hN : ∀ x ∈ N, 0 ≤ x ∧ x < m) (hne : data ≠ [])
    (hm : ∀ r ∈ data, r.length = m) (h0 : ∀ r ∈ data, ∀ a ∈ r, 0 ≤ a) (weights : Option (List ℝ))
    (hw : ∀ w, weights = some w → w.length = data.length ∧ ∀ a ∈ w, 0 ≤ a) (t : ℝ) (U : UGraph Int)
    (hU : ∀ x, x ∈ U.nodes ↔ 0 ≤ x ∧ x < m) (countTests useCache : Bool) :
    ∃ l st s, getVarSize data m = .ok l ∧
      Icd.learnStructureObj o (cmiCondIndep U (fun x y zz => cmiStatistic data l weights x.toNat y.toNat (zz.map Int.toNat)) t)
        opts (Icd.init o N) (CiState.init m countTests useCache) = .ok (st, s) ∧
      Icd.learnStructure o (fun _ x y zz => decide ((x ∈ U.adj y ∨ y ∈ U.adj x) ∨
        empiricalCmi (data.zip (weights.getD (List.replicate data.length 1))) x.toNat y.toNat (zz.map Int.toNat) ≤ t)) opts (Icd.init o N) =
          .ok st := by
  obtain ⟨l, h1, -⟩ := C43_cached hne hm h0 weights hw t U hU [] (by simp) countTests useCache
  obtain ⟨st, s, g1, g2⟩ := C100_answers (m := m) (N := N) o opts hN
    (ask := cmiCondIndep U (fun x y zz => cmiStatistic data l weights x.toNat y.toNat (zz.map Int.toNat)) t)
    (s := CiState.init m countTests useCache)
    (f := fun x y zz => decide ((x ∈ U.adj y ∨ y ∈ U.adj x) ∨
        empiricalCmi (data.zip (weights.getD (List.replicate data.length 1))) x.toNat y.toNat (zz.map Int.toNat) ≤ t)) (fun ops hops => by
      obtain ⟨l', h1', h2⟩ := C43_cached hne hm h0 weights hw t U hU ops hops countTests useCache
      rw [h1] at h1'; cases h1'
      exact h2)
  exact ⟨l, st, s, h1, g1, g2⟩

/-- C100 (exceptions): ICD raises no exception of its own. If it ends with an exception, a query about two different nodes and other nodes,
asked in a state that the test object can reach by such queries, raises it. -/
theorem C100_exceptions {α σ : Type} [LinearOrder α] (o : SetOrder α) (opts : IcdOpts) (call : Pc.Call α σ) (N : Finset α) (s₀ : σ) :
    (∃ r s, Icd.learnStructureObj o call opts (Icd.init o N) s₀ = .ok (r, s) ∧ Pc.Reach N call s₀ s) ∨
      ∃ e s i j l, Icd.learnStructureObj o call opts (Icd.init o N) s₀ = .error e ∧ Pc.Reach N call s₀ s ∧ Pc.Query N i j l ∧
        (call s i j l).1 = .error e := by
  rcases (Icd.learnStructureObj_sim (Pc.alike_refl N call) o opts (Icd.init_inv o Icd.yes N) rfl .start).fine with ⟨a, s, h1, -, h2⟩ | h
  · exact Or.inl ⟨a, s, h1, h2⟩
  · exact Or.inr h

/-- C100 (no exception is swallowed): if ICD returns, no query has raised. -/
theorem C100_swallowed {α σ : Type} [LinearOrder α] (o : SetOrder α) (opts : IcdOpts) (call : Pc.Call α σ) (N : Finset α) (s₀ : σ)
    {r : IcdState α} {s : σ} {b : Bool}
    (h : Icd.learnStructureObj o (Pc.flagged call) opts (Icd.init o N) (s₀, false) = .ok (r, s, b)) : b = false := by
  rcases C100_exceptions o opts (Pc.flagged call) N (s₀, false) with ⟨st', s', h1, h2⟩ | ⟨e, s', i, j, l, h1, -⟩
  · rw [h] at h1; cases h1
    exact h2.unflagged rfl
  · rw [h] at h1; cases h1

/-- C100 (continuous data): on data without constant columns, ICD with the partial-correlation test ends with a result or with a LinAlgError;
the latter only if the correlation matrix of four or more variables is singular. -/
theorem C100_singular {data : List (List ℝ)} (o : SetOrder Int) (opts : IcdOpts) (hN : ∀ x ∈ N, 0 ≤ x ∧ x < m)
    (h2 : 2 ≤ data.length) (hm : ∀ v < m, ¬ ConstantCol data v) (cdf : ℝ → ℝ) (nanInv : Nat → Nat → List Nat → Py (WithBot ℝ))
    (t : WithBot ℝ) (U : UGraph Int) (hU : ∀ x, x ∈ U.nodes ↔ 0 ≤ x ∧ x < m) (countTests useCache : Bool) :
    (∃ r s, Icd.learnStructureObj o (statCondIndep U (parCorrQuery cdf nanInv data) t) opts (Icd.init o N)
        (CiState.init m countTests useCache) = .ok (r, s)) ∨
      Icd.learnStructureObj o (statCondIndep U (parCorrQuery cdf nanInv data) t) opts (Icd.init o N)
        (CiState.init m countTests useCache) = .error .linAlgError ∧
      ∃ vs : List Nat, vs.Nodup ∧ 4 ≤ vs.length ∧ (∀ v ∈ vs, v < m) ∧
        (subMatrix (fun a b => (corrcoef data a b).getD 0) vs).det = 0 := by
  rcases C100_exceptions o opts (statCondIndep U (parCorrQuery cdf nanInv data) t) N (CiState.init m countTests useCache) with
    ⟨st, s, h, -⟩ | ⟨e, s, i, j, l, h, hr, hq, he⟩
  · exact Or.inl ⟨st, s, h⟩
  · obtain ⟨rfl, hd⟩ := Pc.parCorr_raises hN h2 hm hU hr hq he
    exact Or.inr ⟨h, hd⟩

end

/-! ## The hypotheses are met -/

example (o : SetOrder Int) (cdf : ℝ → ℝ) (nanInv : Nat → Nat → List Nat → Py (WithBot ℝ)) :=
  C100_units (m := 2) (N := {0, 1}) (k := fun v => if v = 0 then -2 else 3) (c := fun _ => 7) (data := exObs)
    (data' := [[7, 10], [5, 4], [3, 10]]) o ⟨false, true, true⟩ exNoRet_mem
    (by refine .cons ?_ (.cons ?_ (.cons ?_ .nil)) <;> intro v hv <;> obtain rfl | rfl : v = 0 ∨ v = 1 := by omega
        all_goals norm_num)
    (by intro v hv; obtain rfl | rfl : v = 0 ∨ v = 1 := by omega
        all_goals norm_num)
    (by simp [exObs]) exObs_varies cdf nanInv nanInv (t := 1 / 20) (by norm_num) exNoRet exNoRet_nodes true true false false

example (o : SetOrder Int) (cdf : ℝ → ℝ) (nanInv : Nat → Nat → List Nat → Py (WithBot ℝ)) (t : WithBot ℝ) :=
  C100_singular (m := 2) (N := {0, 1}) o ⟨true, false, false⟩ exNoRet_mem (by simp [exObs]) exObs_varies cdf nanInv t exNoRet exNoRet_nodes true true

example (o : SetOrder Int) (cdf : ℝ → ℝ) (nanInv : Nat → Nat → List Nat → Py (WithBot ℝ)) (t : WithBot ℝ) :=
  C100_cache (m := 2) (N := {0, 1}) o ⟨true, false, false⟩ exNoRet_mem
    (parCorrQuery_symm (fun v hv h => exObs_varies v hv ((covOf_self_eq_zero (by simp [exObs])).mp h)) cdf nanInv) t exNoRet exNoRet_nodes
    true true false true

example (o : SetOrder Int) :=
  C100_cmi (m := 2) (N := {0, 1}) (data := [[0, 1], [1, 0], [2, 1]]) o ⟨false, true, true⟩ exNoRet_mem (by simp) (by decide) (by decide) none (by simp)
    (1 / 100) exNoRet exNoRet_nodes true true

theorem exFork_parents (v : Int) : (exFork.par v).card ≤ 2 := by
  change (if v = 1 ∨ v = 2 then ({0} : Finset Int) else ∅).card ≤ 2
  split_ifs <;> simp

example (o o' : SetOrder Int) := C100_dsep o o' ⟨false, true, true⟩ exFork_wf exFork_acyclic exFork_nodes exFork_parents true true

/-- The common cause is latent. -/
example (o o' : SetOrder Int) := C100_latent (N := {1, 2}) o o' ⟨false, true, true⟩ exFork_wf exFork_acyclic exFork_nodes (by decide) true false

example (o : SetOrder Int) := C100_true_pag (N := {1, 2}) o exFork_wf exFork_acyclic exFork_nodes (by decide) false false

/-- A test that raises at its second call: the exception is passed on. A test that would raise at its tenth call is not asked so often. -/
example :
    (Icd.learnStructureObj ascending (fun (k : Nat) _ _ _ => if k = 1 then (.error .linAlgError, k + 1) else (.ok false, k + 1))
      ⟨false, true, true⟩ (Icd.init ascending {0, 1, 2}) 0).map (fun _ => ()) = .error .linAlgError ∧
    (Icd.learnStructureObj ascending (Pc.flagged fun (k : Nat) _ _ _ => if k = 9 then (.error .linAlgError, k + 1) else (.ok false, k + 1))
      ⟨false, true, true⟩ (Icd.init ascending {0, 1, 2}) (0, false)).map (fun r => r.2) = .ok (6, false) := by
  constructor <;> decide +kernel

end Verif
