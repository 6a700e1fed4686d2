import Verif.Lemmas.OIcdObject
import Verif.Props.FciObject
import Verif.Props.OIcdDeg
import Verif.Props.OIcdLatent

/-!
# C102: ordered ICD with the test objects of the library
-/

namespace Verif

section
variable {R R' : Type} {m : Nat} {N : Finset Int}

/-- C102 (objects): if two test objects answer alike in every history of valid queries, ordered ICD ends with the same graph, separating sets, number
of tests, or with the same exception. -/
theorem C102_objects (o : SetOrder Int) {opts : OIcdOpts Int} (ho : OIcd.IsOrder opts.order N) (isLocal : Bool) (hN : ∀ x ∈ N, 0 ≤ x ∧ x < m)
    {ask : CiState R → Int → Int → List Int → Py Bool × CiState R} {ask' : CiState R' → Int → Int → List Int → Py Bool × CiState R'}
    {s : CiState R} {s' : CiState R'}
    (h : ∀ ops, (∀ x y zz, CiOp.query x y zz ∈ ops → ValidQuery m x y zz) → answers ask s ops = answers ask' s' ops) :
    (OIcd.learnStructureObj o ask opts isLocal (OIcd.first o N) s).map Prod.fst = (OIcd.learnStructureObj o ask' opts isLocal (OIcd.first o N) s').map Prod.fst := by
  rcases (OIcd.learnStructureObj_sim (Pc.alike_objects hN ask ask') o ho isLocal (OIcd.init_ok o N) h .start).same with ⟨e, h1, h2⟩ | ⟨a, s1, s2, h1, h2, -⟩
  · rw [h1, h2]; rfl
  · rw [h1, h2]; rfl

/-- C102 (answers): if the object gives the answers `f` in every history of valid queries, ordered ICD does not raise and its result is that of the
model of C51, C81 and C85 with the test `f`. -/
theorem C102_answers (o : SetOrder Int) {opts : OIcdOpts Int} (ho : OIcd.IsOrder opts.order N) (isLocal : Bool) (hN : ∀ x ∈ N, 0 ≤ x ∧ x < m)
    {ask : CiState R → Int → Int → List Int → Py Bool × CiState R} {s : CiState R} {f : Int → Int → List Int → Bool}
    (h : ∀ ops, (∀ x y zz, CiOp.query x y zz ∈ ops → ValidQuery m x y zz) →
      answers ask s ops = pureAnswers (fun x y zz => .ok (f x y zz)) ops) :
    ∃ st s', OIcd.learnStructureObj o ask opts isLocal (OIcd.first o N) s = .ok (st, s') ∧
      OIcd.learnStructure o (fun _ => f) opts isLocal (OIcd.first o N) = .ok st := by
  obtain ⟨st, h3, -⟩ := (C51_order (ci := fun _ => f) (o := o) ho .refl).1 isLocal
  have h4 : OIcd.learnStructureObj o (Pc.ofCI fun _ => f) opts isLocal (OIcd.first o N) 0 = _ :=
    OIcd.learnStructureObj_of o (fun _ => f) opts isLocal (OIcd.first o N)
  have h3 : OIcd.learnStructure o (fun _ => f) opts isLocal (OIcd.first o N) = .ok st := h3
  rw [h3] at h4
  rcases (OIcd.learnStructureObj_sim (Pc.alike_answers hN ask f) o ho isLocal (OIcd.init_ok o N) (t := 0) h
    .start).same with ⟨e, h1, h2⟩ | ⟨a, s1, s2, h1, h2, -⟩
  · rw [h4] at h2; cases h2
  · rw [h4] at h2; cases h2
    exact ⟨st, s1, h1, h3⟩

/-- C102 (cache and counter): with a statistic that does not depend on the order of its arguments, ordered ICD ends with the same result or the same
exception whether or not results are cached and tests are counted. The first part is for tests by p-value, the second for tests by mutual information. -/
theorem C102_cache [LinearOrder R] (o : SetOrder Int) {opts : OIcdOpts Int} (ho : OIcd.IsOrder opts.order N) (isLocal : Bool) (hN : ∀ x ∈ N, 0 ≤ x ∧ x < m)
    {stat : Int → Int → List Int → Py R} (hs : SymTest m stat) (t : R) (U : UGraph Int) (hU : ∀ x, x ∈ U.nodes ↔ 0 ≤ x ∧ x < m)
    (countTests useCache countTests' useCache' : Bool) :
    (OIcd.learnStructureObj o (statCondIndep U stat t) opts isLocal (OIcd.first o N) (CiState.init m countTests useCache)).map Prod.fst =
      (OIcd.learnStructureObj o (statCondIndep U stat t) opts isLocal (OIcd.first o N) (CiState.init m countTests' useCache')).map Prod.fst ∧
    (OIcd.learnStructureObj o (cmiCondIndep U stat t) opts isLocal (OIcd.first o N) (CiState.init m countTests useCache)).map Prod.fst =
      (OIcd.learnStructureObj o (cmiCondIndep U stat t) opts isLocal (OIcd.first o N) (CiState.init m countTests' useCache')).map Prod.fst := by
  constructor
  · refine C102_objects o ho isLocal hN fun ops hops => ?_
    rw [(C39_statistic hs t U hU ops hops countTests useCache).1, (C39_statistic hs t U hU ops hops countTests' useCache').1]
  · refine C102_objects o ho isLocal hN fun ops hops => ?_
    rw [(C39_statistic hs t U hU ops hops countTests useCache).2, (C39_statistic hs t U hU ops hops countTests' useCache').2]

/-- ordered ICD with a `DSep` object on a DAG, on a subset of its nodes: the result is that of the model with the true answers. -/
theorem OIcd.dsep_object (o o' : SetOrder Int) {opts : OIcdOpts Int} (ho : OIcd.IsOrder opts.order N) (isLocal : Bool) {D : Dag Int} (hD : D.WF) (hac : D.Acyclic)
    (hn : ∀ x, x ∈ D.nodes ↔ 0 ≤ x ∧ x < m) (hO : N ⊆ D.nodes) (countTests useCache : Bool) :
    ∃ (ci : CITest Int) (st : OIcdState Int) (s : CiState Bool),
      (∀ k i j l, ci k i j l = true ↔ D.DSeparated i j l.toFinset) ∧
      OIcd.learnStructureObj o (critCondIndep (fun x y zz => D.dsep o' x y zz.toFinset)) opts isLocal (OIcd.first o N)
        (CiState.init m countTests useCache) = .ok (st, s) ∧
      OIcd.learnStructure o ci opts isLocal (OIcd.first o N) = .ok st := by
  classical
  obtain ⟨st, s, h1, h2⟩ := C102_answers (m := m) (N := N) o ho isLocal (fun x hx => (hn x).mp (hO hx))
    (ask := critCondIndep (fun x y zz => D.dsep o' x y zz.toFinset)) (s := CiState.init m countTests useCache)
    (f := fun x y zz => decide (D.DSeparated x y zz.toFinset)) (fun ops hops => by
      obtain ⟨truth, t1, t2⟩ := C39_dsep o' hD hac hn ops hops countTests useCache
      rw [t2]
      refine pureAnswers_congr (fun x y zz hv => ?_) ops hops
      congr 1
      rw [Bool.eq_iff_iff, t1 x y zz hv, decide_eq_true_iff])
  exact ⟨_, st, s, fun _ _ _ _ => decide_eq_true_iff, h1, h2⟩

/-- C102 (d-separation): ordered ICD with a causal order and a `DSep` object on a DAG whose nodes are all observed and have at most three
parents each (local variant) or at most two (global variant), and at most `max_cond_size`, with or without cache and counter, does not raise,
finds the skeleton of the DAG, and places an arrowhead exactly where the DAG has one. -/
theorem C102_dsep (o o' : SetOrder Int) {opts : OIcdOpts Int} {D : Dag Int} (hD : D.WF) (hac : D.Acyclic)
    (ho : D.CausalOrder D.nodes opts.order) (isLocal : Bool) (hn : ∀ x, x ∈ D.nodes ↔ 0 ≤ x ∧ x < m)
    (hdeg : ∀ v, (D.par v).card ≤ if isLocal then 3 else 2) (hm : ∀ m, opts.maxCond = some m → ∀ v, (D.par v).card ≤ m)
    (countTests useCache : Bool) :
    ∃ st s, OIcd.learnStructureObj o (critCondIndep (fun x y zz => D.dsep o' x y zz.toFinset)) opts isLocal (OIcd.first o D.nodes)
        (CiState.init m countTests useCache) = .ok (st, s) ∧ (∀ a b, st.graph.MAdj a b ↔ D.Adj a b) ∧
      (∀ a b, st.graph.At a b .arrow ↔ D.Edge a b) ∧ ∀ a b, st.graph.At a b .tail → D.Edge b a := by
  obtain ⟨ci, st, s, h0, h1, h2⟩ := OIcd.dsep_object o o' ho.isOrder isLocal hD hac hn (Finset.Subset.refl _) countTests useCache
  obtain ⟨st', k1, -, -, k2, k3, k4⟩ := C81_observed_partial o hD hac ho (ci := ci) (fun k i j l _ _ _ _ _ _ => h0 k i j l) isLocal hdeg hm
  have k1 : OIcd.learnStructure o ci opts isLocal (OIcd.first o D.nodes) = .ok st' := k1
  rw [h2] at k1; cases k1
  exact ⟨st, s, h1, k2, k3, k4⟩

/-- C102 (latent variables): ordered ICD with a causal order of the observed nodes `N` and a `DSep` object on a DAG does not raise; no pair
that cannot be separated loses its edge; and if every pair that is left adjacent cannot be separated, the arrowheads and the unshielded
colliders are right, and without the tail rules the tails as well. -/
theorem C102_latent (o o' : SetOrder Int) {opts : OIcdOpts Int} {D : Dag Int} (hD : D.WF) (hac : D.Acyclic)
    (ho : D.CausalOrder N opts.order) (isLocal : Bool) (hn : ∀ x, x ∈ D.nodes ↔ 0 ≤ x ∧ x < m) (hO : N ⊆ D.nodes)
    (countTests useCache : Bool) :
    ∃ st s, OIcd.learnStructureObj o (critCondIndep (fun x y zz => D.dsep o' x y zz.toFinset)) opts isLocal (OIcd.first o N)
        (CiState.init m countTests useCache) = .ok (st, s) ∧
      (∀ a ∈ N, ∀ b ∈ N, a ≠ b → D.Insep N a b → st.graph.MAdj a b) ∧
      ((∀ a b, st.graph.MAdj a b → D.Insep N a b) → D.ArrowsTrue st.graph ∧ D.CollidersFound N st.graph ∧
        (opts.tails = false → D.TailsTrue st.graph)) := by
  obtain ⟨ci, st, s, h0, h1, h2⟩ := OIcd.dsep_object (N := N) o o' ho.isOrder isLocal hD hac hn hO countTests useCache
  have hp : Pc.PerfectOn ci D N := fun k i j l _ _ _ _ _ _ => h0 k i j l
  obtain ⟨-, st', k1, -, -, k2, k3⟩ := C81_partial hac ho hp (.refl : OIcd.Reachable o ci opts N (OIcd.first o N)) isLocal
  have k1 : OIcd.learnStructure o ci opts isLocal (OIcd.first o N) = .ok st' := k1
  rw [h2] at k1; cases k1
  exact ⟨st, s, h1, k2, fun h => ⟨(k3 h).1, (k3 h).2.1, fun ht => (k3 h).2.2 (Or.inl ht)⟩⟩

end

section
variable {m : Nat} {N : Finset Int}

/-- C102 (units): what ordered ICD learns from continuous data with the partial-correlation test does not depend on the units of the variables, nor on
the options for caching and counting. -/
theorem C102_units {data data' : List (List ℝ)} (o : SetOrder Int) {opts : OIcdOpts Int} (ho : OIcd.IsOrder opts.order N) (isLocal : Bool) (hN : ∀ x ∈ N, 0 ≤ x ∧ x < m) {k c : Nat → ℝ}
    (hr : Rescaled m k c data data') (hk : ∀ v < m, k v ≠ 0) (h2 : 2 ≤ data.length) (hm : ∀ v < m, ¬ ConstantCol data v) (cdf : ℝ → ℝ)
    (nanInv nanInv' : Nat → Nat → List Nat → Py (WithBot ℝ)) {t : ℝ} (ht : 0 ≤ t) (U : UGraph Int) (hU : ∀ x, x ∈ U.nodes ↔ 0 ≤ x ∧ x < m)
    (countTests useCache countTests' useCache' : Bool) :
    (OIcd.learnStructureObj o (statCondIndep U (parCorrQuery cdf nanInv' data') (t : WithBot ℝ)) opts isLocal (OIcd.first o N)
      (CiState.init m countTests' useCache')).map Prod.fst =
    (OIcd.learnStructureObj o (statCondIndep U (parCorrQuery cdf nanInv data) (t : WithBot ℝ)) opts isLocal (OIcd.first o N)
      (CiState.init m countTests useCache)).map Prod.fst :=
  C102_objects o ho isLocal hN fun ops hops =>
    C83_units hr hk h2 hm cdf nanInv nanInv' ht U hU ops hops countTests useCache countTests' useCache'

/-- C102 (categorical data): ordered ICD with the mutual-information test does not raise; its result is that of the model with the test "retained edge
or empirical conditional mutual information at most the threshold". -/
theorem C102_cmi {data : List (List Int)} (o : SetOrder Int) {opts : OIcdOpts Int} (ho : OIcd.IsOrder opts.order N) (isLocal : Bool) (hN : ∀ x ∈ N, 0 ≤ x ∧ x < m) (hne : data ≠ [])
    (hm : ∀ r ∈ data, r.length = m) (h0 : ∀ r ∈ data, ∀ a ∈ r, 0 ≤ a) (weights : Option (List ℝ))
    (hw : ∀ w, weights = some w → w.length = data.length ∧ ∀ a ∈ w, 0 ≤ a) (t : ℝ) (U : UGraph Int)
    (hU : ∀ x, x ∈ U.nodes ↔ 0 ≤ x ∧ x < m) (countTests useCache : Bool) :
    ∃ l st s, getVarSize data m = .ok l ∧
      OIcd.learnStructureObj o (cmiCondIndep U (fun x y zz => cmiStatistic data l weights x.toNat y.toNat (zz.map Int.toNat)) t)
        opts isLocal (OIcd.first o N) (CiState.init m countTests useCache) = .ok (st, s) ∧
      OIcd.learnStructure o (fun _ x y zz => decide ((x ∈ U.adj y ∨ y ∈ U.adj x) ∨
        empiricalCmi (data.zip (weights.getD (List.replicate data.length 1))) x.toNat y.toNat (zz.map Int.toNat) ≤ t)) opts isLocal (OIcd.first o N) =
          .ok st := by
  obtain ⟨l, h1, -⟩ := C43_cached hne hm h0 weights hw t U hU [] (by simp) countTests useCache
  obtain ⟨st, s, g1, g2⟩ := C102_answers (m := m) (N := N) o ho isLocal hN
    (ask := cmiCondIndep U (fun x y zz => cmiStatistic data l weights x.toNat y.toNat (zz.map Int.toNat)) t)
    (s := CiState.init m countTests useCache)
    (f := fun x y zz => decide ((x ∈ U.adj y ∨ y ∈ U.adj x) ∨
        empiricalCmi (data.zip (weights.getD (List.replicate data.length 1))) x.toNat y.toNat (zz.map Int.toNat) ≤ t)) (fun ops hops => by
      obtain ⟨l', h1', h2⟩ := C43_cached hne hm h0 weights hw t U hU ops hops countTests useCache
      rw [h1] at h1'; cases h1'
      exact h2)
  exact ⟨l, st, s, h1, g1, g2⟩

/-- C102 (exceptions): ordered ICD raises no exception of its own. If it ends with an exception, a query about two different nodes and other nodes,
asked in a state that the test object can reach by such queries, raises it. -/
theorem C102_exceptions {α σ : Type} [LinearOrder α] (o : SetOrder α) {N : Finset α} {opts : OIcdOpts α} (ho : OIcd.IsOrder opts.order N) (isLocal : Bool) (call : Pc.Call α σ) (s₀ : σ) :
    (∃ r s, OIcd.learnStructureObj o call opts isLocal (OIcd.first o N) s₀ = .ok (r, s) ∧ Pc.Reach N call s₀ s) ∨
      ∃ e s i j l, OIcd.learnStructureObj o call opts isLocal (OIcd.first o N) s₀ = .error e ∧ Pc.Reach N call s₀ s ∧ Pc.Query N i j l ∧
        (call s i j l).1 = .error e := by
  rcases (OIcd.learnStructureObj_sim (Pc.alike_refl N call) o ho isLocal (OIcd.init_ok o N) rfl .start).fine with ⟨a, s, h1, -, h2⟩ | h
  · exact Or.inl ⟨a, s, h1, h2⟩
  · exact Or.inr h

/-- C102 (no exception is swallowed): if ordered ICD returns, no query has raised. -/
theorem C102_swallowed {α σ : Type} [LinearOrder α] (o : SetOrder α) {N : Finset α} {opts : OIcdOpts α} (ho : OIcd.IsOrder opts.order N) (isLocal : Bool) (call : Pc.Call α σ) (s₀ : σ)
    {r : OIcdState α} {s : σ} {b : Bool}
    (h : OIcd.learnStructureObj o (Pc.flagged call) opts isLocal (OIcd.first o N) (s₀, false) = .ok (r, s, b)) : b = false := by
  rcases C102_exceptions o ho isLocal (Pc.flagged call) (s₀, false) with ⟨st', s', h1, h2⟩ | ⟨e, s', i, j, l, h1, -⟩
  · rw [h] at h1; cases h1
    exact h2.unflagged rfl
  · rw [h] at h1; cases h1

/-- C102 (continuous data): on data without constant columns, ordered ICD with the partial-correlation test ends with a result or with a LinAlgError;
the latter only if the correlation matrix of four or more variables is singular. -/
theorem C102_singular {data : List (List ℝ)} (o : SetOrder Int) {opts : OIcdOpts Int} (ho : OIcd.IsOrder opts.order N) (isLocal : Bool) (hN : ∀ x ∈ N, 0 ≤ x ∧ x < m)
    (h2 : 2 ≤ data.length) (hm : ∀ v < m, ¬ ConstantCol data v) (cdf : ℝ → ℝ) (nanInv : Nat → Nat → List Nat → Py (WithBot ℝ))
    (t : WithBot ℝ) (U : UGraph Int) (hU : ∀ x, x ∈ U.nodes ↔ 0 ≤ x ∧ x < m) (countTests useCache : Bool) :
    (∃ r s, OIcd.learnStructureObj o (statCondIndep U (parCorrQuery cdf nanInv data) t) opts isLocal (OIcd.first o N)
        (CiState.init m countTests useCache) = .ok (r, s)) ∨
      OIcd.learnStructureObj o (statCondIndep U (parCorrQuery cdf nanInv data) t) opts isLocal (OIcd.first o N)
        (CiState.init m countTests useCache) = .error .linAlgError ∧
      ∃ vs : List Nat, vs.Nodup ∧ 4 ≤ vs.length ∧ (∀ v ∈ vs, v < m) ∧
        (subMatrix (fun a b => (corrcoef data a b).getD 0) vs).det = 0 := by
  rcases C102_exceptions o ho isLocal (statCondIndep U (parCorrQuery cdf nanInv data) t) (CiState.init m countTests useCache) with
    ⟨st, s, h, -⟩ | ⟨e, s, i, j, l, h, hr, hq, he⟩
  · exact Or.inl ⟨st, s, h⟩
  · obtain ⟨rfl, hd⟩ := Pc.parCorr_raises hN h2 hm hU hr hq he
    exact Or.inr ⟨h, hd⟩

end

/-! ## The hypotheses are met -/

theorem exNoRet_order : OIcd.IsOrder [1, 0] ({0, 1} : Finset Int) := ⟨by decide, by intro x; simp [or_comm]⟩

example (o : SetOrder Int) (isLocal : Bool) (cdf : ℝ → ℝ) (nanInv : Nat → Nat → List Nat → Py (WithBot ℝ)) :=
  C102_units (m := 2) (N := {0, 1}) (k := fun v => if v = 0 then -2 else 3) (c := fun _ => 7) (data := exObs)
    (data' := [[7, 10], [5, 4], [3, 10]]) (opts := ⟨[1, 0], true, true, none⟩) o exNoRet_order isLocal exNoRet_mem
    (by refine .cons ?_ (.cons ?_ (.cons ?_ .nil)) <;> intro v hv <;> obtain rfl | rfl : v = 0 ∨ v = 1 := by omega
        all_goals norm_num)
    (by intro v hv; obtain rfl | rfl : v = 0 ∨ v = 1 := by omega
        all_goals norm_num)
    (by simp [exObs]) exObs_varies cdf nanInv nanInv (t := 1 / 20) (by norm_num) exNoRet exNoRet_nodes true true false false

example (o : SetOrder Int) (isLocal : Bool) (cdf : ℝ → ℝ) (nanInv : Nat → Nat → List Nat → Py (WithBot ℝ)) (t : WithBot ℝ) :=
  C102_singular (m := 2) (N := {0, 1}) (opts := ⟨[1, 0], true, true, some 0⟩) o exNoRet_order isLocal exNoRet_mem (by simp [exObs]) exObs_varies cdf nanInv t exNoRet
    exNoRet_nodes true true

example (o : SetOrder Int) (isLocal : Bool) (cdf : ℝ → ℝ) (nanInv : Nat → Nat → List Nat → Py (WithBot ℝ)) (t : WithBot ℝ) :=
  C102_cache (m := 2) (N := {0, 1}) (opts := ⟨[1, 0], false, true, none⟩) o exNoRet_order isLocal exNoRet_mem
    (parCorrQuery_symm (fun v hv h => exObs_varies v hv ((covOf_self_eq_zero (by simp [exObs])).mp h)) cdf nanInv) t exNoRet exNoRet_nodes
    true true false true

example (o : SetOrder Int) (isLocal : Bool) :=
  C102_cmi (m := 2) (N := {0, 1}) (data := [[0, 1], [1, 0], [2, 1]]) (opts := ⟨[1, 0], true, true, none⟩) o exNoRet_order isLocal exNoRet_mem
    (by simp) (by decide) (by decide) none (by simp) (1 / 100) exNoRet exNoRet_nodes true true

theorem exFork_path {a b : Int} (h : exFork.DPath a b) : a = b ∨ a = 0 := by
  induction h with
  | refl => exact Or.inl rfl
  | tail h1 h2 ih =>
    obtain ⟨rfl, -⟩ := exFork_edge h2
    rcases ih with rfl | rfl <;> exact Or.inr rfl

theorem exFork_order : exFork.CausalOrder exFork.nodes [0, 2, 1] := by
  refine ⟨⟨by decide, by intro x; simp [exFork]; tauto⟩, fun a ha b hb hab h => ?_⟩
  obtain rfl := (exFork_path h).resolve_left hab
  simp only [exFork, Finset.mem_insert, Finset.mem_singleton] at hb
  rcases hb with rfl | rfl | rfl
  · exact absurd rfl hab
  · decide
  · decide

theorem exFork_order_latent : exFork.CausalOrder {1, 2} [2, 1] := by
  refine ⟨⟨by decide, by intro x; simp [or_comm]⟩, fun a ha b hb hab h => ?_⟩
  obtain rfl := (exFork_path h).resolve_left hab
  simp at ha

example (o o' : SetOrder Int) (isLocal : Bool) :=
  C102_dsep o o' (opts := ⟨[0, 2, 1], true, true, some 1⟩) exFork_wf exFork_acyclic exFork_order isLocal exFork_nodes
    (fun v => by
      change (if v = 1 ∨ v = 2 then ({0} : Finset Int) else ∅).card ≤ _
      cases isLocal <;> split_ifs <;> simp)
    (fun m h v => by
      cases h
      change (if v = 1 ∨ v = 2 then ({0} : Finset Int) else ∅).card ≤ _
      split_ifs <;> simp) true true

/-- The common cause is latent. -/
example (o o' : SetOrder Int) (isLocal : Bool) :=
  C102_latent (N := {1, 2}) o o' (opts := ⟨[2, 1], true, false, none⟩) exFork_wf exFork_acyclic exFork_order_latent isLocal exFork_nodes
    (by decide) true false

/-- A test that raises at its second call: the exception is passed on. A test that would raise at its twentieth call is not asked so often. -/
example :
    (OIcd.learnStructureObj ascending (fun (k : Nat) _ _ _ => if k = 1 then (.error .linAlgError, k + 1) else (.ok false, k + 1))
      ⟨[0, 2, 1], true, true, none⟩ true (OIcd.first ascending {0, 1, 2}) 0).map (fun _ => ()) = .error .linAlgError ∧
    (OIcd.learnStructureObj ascending (Pc.flagged fun (k : Nat) _ _ _ => if k = 19 then (.error .linAlgError, k + 1) else (.ok false, k + 1))
      ⟨[0, 2, 1], true, true, none⟩ false (OIcd.first ascending {0, 1, 2}) (0, false)).map (fun r => r.2.2) = .ok false := by
  constructor <;> decide +kernel

end Verif
