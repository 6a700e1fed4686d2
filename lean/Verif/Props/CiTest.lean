import Verif.Spec.CiTest
import Verif.Lemmas.CiTest
import Verif.Lemmas.Dsep
import Verif.Lemmas.PagSound
import Verif.Props.Dag

/-!
# Properties C39-C41: cache, counters and retained edges of the CI tests
-/

namespace Verif

/-! ## C39 -/

theorem answers_eq {R : Type} {ask : CiState R → Int → Int → List Int → Py Bool × CiState R} {I : CiState R → Prop}
    {f : Int → Int → List Int → Py Bool} {V : Int → Int → List Int → Prop}
    (hq : ∀ s x y zz, I s → V x y zz → (ask s x y zz).1 = f x y zz ∧ I (ask s x y zz).2)
    (hd : ∀ s x y zz, I s → I { s with cache := (s.cache.del x y zz).2 }) :
    ∀ (ops : List CiOp) (s : CiState R), I s → (∀ x y zz, CiOp.query x y zz ∈ ops → V x y zz) →
      answers ask s ops = pureAnswers f ops := by
  intro ops
  induction ops with
  | nil => intro s _ _; rfl
  | cons op ops ih =>
    intro s hs hV
    cases op with
    | query x y zz =>
      obtain ⟨h1, h2⟩ := hq s x y zz hs (hV x y zz (by simp))
      simp only [answers, pureAnswers, h1]
      rw [ih _ h2 fun x y zz h => hV x y zz (List.mem_cons_of_mem _ h)]
    | delete x y zz =>
      simp only [answers, pureAnswers]
      exact ih _ (hd s x y zz hs) fun x y zz h => hV x y zz (List.mem_cons_of_mem _ h)

/-- C39 (graph-based tests): for a criterion that does not depend on the order of its arguments, all answers in every history of
valid queries and cache deletions are those of the criterion itself, with or without cache, with or without counting. -/
theorem C39_criterion {n : Nat} {crit : Int → Int → List Int → Py Bool} (hc : SymTest n crit) (ops : List CiOp)
    (hops : ∀ x y zz, CiOp.query x y zz ∈ ops → ValidQuery n x y zz) (countTests useCache : Bool) :
    answers (critCondIndep crit) (CiState.init n countTests useCache) ops = pureAnswers crit ops := by
  cases useCache with
  | true =>
    refine answers_eq (ask := critCondIndep crit) (f := crit) (I := Sane n crit) (V := ValidQuery n) ?_ ?_ ops _
      (sane_init n crit countTests) hops
    · intro s x y zz hs hv; exact crit_sane hc hs hv
    · intro s x y zz hs; exact del_sane hs x y zz
  | false =>
    refine answers_eq (ask := critCondIndep crit) (f := crit) (I := Plain n) (V := ValidQuery n) ?_ ?_ ops _
      (plain_init n countTests) hops
    · intro s x y zz hs hv; exact crit_plain hs hv
    · intro s x y zz hs; exact del_plain hs x y zz

/-- C39 for `GraphCondIndep` with a static conditioning tuple: the answers are those of the criterion for the union. -/
theorem C39_static (o : SetOrder Int) {n : Nat} {crit : Int → Int → List Int → Py Bool} (hc : SymTest n crit) (st : List Int)
    (ops : List CiOp) (hops : ∀ x y zz, CiOp.query x y zz ∈ ops → CacheCI.InRange n x y ∧
      ∀ z, z ∈ zz ∨ z ∈ st → 0 ≤ z ∧ z < n ∧ z ≠ x ∧ z ≠ y) (countTests useCache : Bool) :
    answers (graphCondIndep o crit (some st)) (CiState.init n countTests useCache) ops =
      pureAnswers (fun x y zz => crit x y (o.iter (x, y, zz) (zz ++ st).toFinset)) ops := by
  have hval : ∀ x y zz, (CacheCI.InRange n x y ∧ ∀ z, z ∈ zz ∨ z ∈ st → 0 ≤ z ∧ z < n ∧ z ≠ x ∧ z ≠ y) →
      ValidQuery n x y (o.iter (x, y, zz) (zz ++ st).toFinset) := by
    intro x y zz h
    refine ⟨h.1, o.nodup _ _, fun z hz => h.2 z ?_⟩
    simpa [o.mem] using hz
  cases useCache with
  | true =>
    refine answers_eq (ask := graphCondIndep o crit (some st)) (I := Sane n crit) (V := fun x y zz => CacheCI.InRange n x y ∧
      ∀ z, z ∈ zz ∨ z ∈ st → 0 ≤ z ∧ z < n ∧ z ≠ x ∧ z ≠ y) ?_ ?_ ops _ (sane_init n crit countTests) hops
    · intro s x y zz hs hv; exact crit_sane hc hs (hval x y zz hv)
    · intro s x y zz hs; exact del_sane hs x y zz
  | false =>
    refine answers_eq (ask := graphCondIndep o crit (some st)) (I := Plain n) (V := fun x y zz => CacheCI.InRange n x y ∧
      ∀ z, z ∈ zz ∨ z ∈ st → 0 ≤ z ∧ z < n ∧ z ≠ x ∧ z ≠ y) ?_ ?_ ops _ (plain_init n countTests) hops
    · intro s x y zz hs hv; exact crit_plain hs (hval x y zz hv)
    · intro s x y zz hs; exact del_plain hs x y zz

section
variable {R : Type} [LinearOrder R]

/-- The decision of a p-value test: not independent if the edge is retained, otherwise statistic above the threshold; an exception
of the statistic is passed on. -/
def pDecision (U : UGraph Int) (stat : Int → Int → List Int → Py R) (t : R) (x y : Int) (zz : List Int) : Py Bool :=
  if x ∈ U.adj y ∨ y ∈ U.adj x then .ok false else (stat x y zz).map (fun v => decide (t < v))

theorem isConnected_ok {U : UGraph Int} {x y : Int} (hx : x ∈ U.nodes) (hy : y ∈ U.nodes) :
    U.isConnected x y = .ok (decide (x ∈ U.adj y ∨ y ∈ U.adj x)) := by
  unfold UGraph.isConnected UGraph.get
  simp only [hx, hy, if_true]
  by_cases h : x ∈ U.adj y <;> simp [h, bind, Except.bind, pure, Except.pure]

/-- C39 (statistical tests): for a statistic that does not depend on the order of its arguments, all answers in every history of
valid queries and cache deletions are the decision for the statistic, with or without cache, with or without counting. -/
theorem C39_statistic {n : Nat} {stat : Int → Int → List Int → Py R} (hs : SymTest n stat) (t : R) (U : UGraph Int)
    (hU : ∀ x, x ∈ U.nodes ↔ 0 ≤ x ∧ x < n) (ops : List CiOp)
    (hops : ∀ x y zz, CiOp.query x y zz ∈ ops → ValidQuery n x y zz) (countTests useCache : Bool) :
    answers (statCondIndep U stat t) (CiState.init n countTests useCache) ops =
      pureAnswers (pDecision U stat t) ops ∧
    answers (cmiCondIndep U stat t) (CiState.init n countTests useCache) ops =
      pureAnswers (fun x y zz => (pDecision U stat t x y zz).map (! ·)) ops := by
  have hans : ∀ x y zz, ValidQuery n x y zz →
      statAnswer U stat t x y zz = pDecision U stat t x y zz := by
    intro x y zz hv
    unfold statAnswer pDecision
    rw [isConnected_ok ((hU x).2 ⟨hv.1.1, hv.1.2.1⟩) ((hU y).2 ⟨hv.1.2.2.1, hv.1.2.2.2.1⟩)]
    by_cases h : x ∈ U.adj y ∨ y ∈ U.adj x <;> simp only [h, decide_true, decide_false] <;> rfl
  cases useCache with
  | true =>
    constructor
    · refine answers_eq (I := Sane n stat) (V := ValidQuery n) (fun s x y zz h hv => ?_) (fun s x y zz h => del_sane h x y zz) ops _ (sane_init n _ countTests) hops
      rw [← hans x y zz hv]
      exact stat_sane hs U t h hv
    · refine answers_eq (I := Sane n stat) (V := ValidQuery n) (fun s x y zz h hv => ?_) (fun s x y zz h => del_sane h x y zz) ops _ (sane_init n _ countTests) hops
      obtain ⟨h1, h2⟩ := stat_sane hs U t h hv
      exact ⟨by simp only [cmiCondIndep, h1, hans x y zz hv], h2⟩
  | false =>
    constructor
    · refine answers_eq (I := Plain n) (V := ValidQuery n) (fun s x y zz h hv => ?_) (fun s x y zz h => del_plain h x y zz) ops _ (plain_init n countTests) hops
      rw [← hans x y zz hv]
      exact stat_plain U t h hv
    · refine answers_eq (I := Plain n) (V := ValidQuery n) (fun s x y zz h hv => ?_) (fun s x y zz h => del_plain h x y zz) ops _ (plain_init n countTests) hops
      obtain ⟨h1, h2⟩ := stat_plain (f := stat) U t h hv
      exact ⟨by simp only [cmiCondIndep, h1, hans x y zz hv], h2⟩

end

/-- C39 for `DSep` on a DAG with nodes `0..n-1`: every answer is the truth about d-separation. -/
theorem C39_dsep (o : SetOrder Int) {n : Nat} {G : Dag Int} (hG : G.WF) (hac : G.Acyclic)
    (hn : ∀ x, x ∈ G.nodes ↔ 0 ≤ x ∧ x < n) (ops : List CiOp)
    (hops : ∀ x y zz, CiOp.query x y zz ∈ ops → ValidQuery n x y zz) (countTests useCache : Bool) :
    ∃ truth : Int → Int → List Int → Bool,
      (∀ x y zz, ValidQuery n x y zz → (truth x y zz = true ↔ G.DSeparated x y zz.toFinset)) ∧
      answers (critCondIndep (fun x y zz => G.dsep o x y zz.toFinset)) (CiState.init n countTests useCache) ops =
        pureAnswers (fun x y zz => .ok (truth x y zz)) ops := by
  classical
  have hspec : ∀ x y zz, ValidQuery n x y zz →
      G.dsep o x y zz.toFinset = .ok (decide (G.DSeparated x y zz.toFinset)) := by
    intro x y zz hv
    obtain ⟨b, h1, h2⟩ := Dag.dsep_spec o hG hac ((hn x).2 ⟨hv.1.1, hv.1.2.1⟩) ((hn y).2 ⟨hv.1.2.2.1, hv.1.2.2.2.1⟩)
      (Z := zz.toFinset) (fun z hz => (hn z).2 ⟨(hv.2.2 z (by simpa using hz)).1, (hv.2.2 z (by simpa using hz)).2.1⟩)
      (fun h => (hv.2.2 x (by simpa using h)).2.2.1 rfl) (fun h => (hv.2.2 y (by simpa using h)).2.2.2 rfl)
    rw [h1, Bool.eq_iff_iff.2 (h2.trans (by simp : G.DSeparated x y zz.toFinset ↔ decide (G.DSeparated x y zz.toFinset) = true))]
  have hsym : SymTest n (fun x y zz => G.dsep o x y zz.toFinset) := by
    intro x y zz hv
    refine ⟨?_, fun zz' hp => by simp only [List.toFinset_eq_of_perm _ _ hp]⟩
    simp only [hspec x y zz hv, hspec y x zz hv.symm, Dag.dseparated_symm hac]
  refine ⟨fun x y zz => decide (G.DSeparated x y zz.toFinset), fun x y zz _ => by simp, ?_⟩
  rw [C39_criterion hsym ops hops]
  have : ∀ ops : List CiOp, (∀ x y zz, CiOp.query x y zz ∈ ops → ValidQuery n x y zz) →
      pureAnswers (fun x y zz => G.dsep o x y zz.toFinset) ops =
        pureAnswers (fun x y zz => .ok (decide (G.DSeparated x y zz.toFinset))) ops := by
    intro ops
    induction ops with
    | nil => intro _; rfl
    | cons op ops ih =>
      intro h
      cases op with
      | query x y zz =>
        simp only [pureAnswers]
        rw [hspec x y zz (h x y zz (by simp)), ih fun x y zz h' => h x y zz (List.mem_cons_of_mem _ h')]
      | delete x y zz => exact ih fun x y zz h' => h x y zz (List.mem_cons_of_mem _ h')
  exact this ops hops

/-- The DAG 0 → 1 → 2 ← 3 on integers. -/
def exDint : Dag Int := ⟨{0, 1, 2, 3}, fun v => if v = 1 then {0} else if v = 2 then {1, 3} else ∅⟩

/-- The hypotheses of `C39_dsep` are met. -/
example : exDint.WF ∧ exDint.Acyclic ∧ (∀ x, x ∈ exDint.nodes ↔ 0 ≤ x ∧ x < (4 : Nat)) ∧ ValidQuery 4 0 3 [2, 1] := by
  have hp : ∀ u v, exDint.Edge u v → (u = 0 ∧ v = 1) ∨ (u = 1 ∧ v = 2) ∨ (u = 3 ∧ v = 2) := by
    intro u v h
    simp only [Dag.Edge, exDint] at h
    split_ifs at h <;> simp_all
  refine ⟨?_, ?_, ?_, ?_⟩
  · intro u v h
    rcases hp u v h with ⟨rfl, rfl⟩ | ⟨rfl, rfl⟩ | ⟨rfl, rfl⟩ <;> decide
  · have : ∀ u v, Relation.TransGen exDint.Edge u v → (if u = 3 then 1 else u) < (if v = 3 then 1 else v) := by
      intro u v h
      induction h with
      | single h =>
        rcases hp _ _ h with ⟨rfl, rfl⟩ | ⟨rfl, rfl⟩ | ⟨rfl, rfl⟩ <;> decide
      | tail _ h ih =>
        refine lt_trans ih ?_
        rcases hp _ _ h with ⟨rfl, rfl⟩ | ⟨rfl, rfl⟩ | ⟨rfl, rfl⟩ <;> decide
    intro v h
    exact lt_irrefl _ (this v v h)
  · intro x
    simp only [exDint, Finset.mem_insert, Finset.mem_singleton]
    omega
  · refine ⟨⟨by decide, by decide, by decide, by decide, by decide⟩, by decide, by decide⟩

/-! ## C40 -/

/-- The keys of the cache never change. -/
theorem after_keys {n : Nat} {crit : Int → Int → List Int → Py Bool} : ∀ (ops : List CiOp) (s : CiState Bool),
    s.isCache = true → s.cache.Keys n → (after (critCondIndep crit) s ops).isCache = true ∧
      (after (critCondIndep crit) s ops).cache.Keys n := by
  intro ops
  induction ops with
  | nil => intro s h1 h2; exact ⟨h1, h2⟩
  | cons op ops ih =>
    intro s h1 h2
    cases op with
    | delete x y zz => exact ih { s with cache := (s.cache.del x y zz).2 } h1 (CacheCI.del_spec h2 x y zz).2.1
    | query x y zz =>
      suffices h : (critCondIndep crit s x y zz).2.isCache = true ∧ (critCondIndep crit s x y zz).2.cache.Keys n from
        ih _ h.1 h.2
      unfold critCondIndep
      cases s.cache.get x y zz with
      | some r => exact ⟨h1, h2⟩
      | none =>
        cases crit x y zz with
        | error e => exact ⟨h1, h2⟩
        | ok r =>
          simp only
          cases hst : s.store x y zz r with
          | error e => exact ⟨h1, h2⟩
          | ok s1 =>
            have hs1 : s1.isCache = true ∧ s1.cache.Keys n := by
              simp only [CiState.store, h1, if_true] at hst
              by_cases hr : CacheCI.InRange n x y
              · obtain ⟨c', k1, k2, _⟩ := (CacheCI.set_spec h2 x y zz r).2 hr
                rw [py_bind k1] at hst
                cases hst
                exact ⟨rfl, k2⟩
              · rw [(CacheCI.set_spec h2 x y zz r).1 hr] at hst
                cases hst
            simp only
            cases hct : s1.count zz.length with
            | error e => exact hs1
            | ok s2 =>
              have : s2.cache = s1.cache ∧ s2.isCache = s1.isCache := by
                unfold CiState.count at hct
                cases hcc : s1.counter with
                | none => rw [hcc] at hct; cases hct; exact ⟨rfl, rfl⟩
                | some l =>
                  rw [hcc] at hct
                  simp only at hct
                  cases hl : l[zz.length]? with
                  | none => rw [hl] at hct; cases hct
                  | some c => rw [hl] at hct; cases hct; exact ⟨rfl, rfl⟩
              simp only [this]
              exact hs1

/-- C40: a test with cache for `n` variables, after any history of calls, raises KeyError for every pair that is not a pair of
distinct labels in `0..n-1`, whenever the criterion itself has an answer. -/
theorem C40_key_error {n : Nat} {crit : Int → Int → List Int → Py Bool} (ops : List CiOp) (countTests : Bool) {x y : Int}
    (hxy : ¬ (0 ≤ x ∧ x < n ∧ 0 ≤ y ∧ y < n ∧ x ≠ y)) (zz : List Int) {r : Bool} (hr : crit x y zz = .ok r) :
    (critCondIndep crit (after (critCondIndep crit) (CiState.init n countTests true) ops) x y zz).1 = .error .keyError := by
  obtain ⟨h1, h2⟩ := after_keys (crit := crit) ops (CiState.init n countTests true) rfl (CacheCI.init_keys n)
  generalize after (critCondIndep crit) (CiState.init n countTests true) ops = s at h1 h2
  unfold critCondIndep
  have hg : s.cache.get x y zz = none := by
    obtain ⟨D, hD, hk⟩ := h2
    have : Dict.get? D (CacheCI.hkeys x y zz).1 = none := by
      rw [← Option.not_isSome_iff_eq_none, hk]; exact hxy
    simp only [CacheCI.get, hD, this]
  rw [hg, hr]
  simp only [CiState.store, h1, if_true, (CacheCI.set_spec h2 x y zz r).1 hxy]
  rfl

/-- C40 for `set_cache_result` itself: the cache accepts exactly the pairs of distinct labels in `0..n-1`. -/
theorem C40_set {R : Type} (n : Nat) (x y : Int) (zz : List Int) (r : R) :
    (∃ c, (CacheCI.init (some n)).set x y zz r = .ok c) ↔ 0 ≤ x ∧ x < n ∧ 0 ≤ y ∧ y < n ∧ x ≠ y := by
  constructor
  · rintro ⟨c, hc⟩
    by_contra h
    rw [(CacheCI.set_spec (CacheCI.init_keys n) x y zz r).1 h] at hc
    cases hc
  · intro h
    obtain ⟨c, hc, _⟩ := (CacheCI.set_spec (CacheCI.init_keys n) x y zz r).2 h
    exact ⟨c, hc⟩

/-- The test on a two-node DAG with labels 1 and 2 fails on its first query. -/
example : (critCondIndep (fun _ _ _ => .ok true) (CiState.init 2 false true) 1 2 []).1 = .error .keyError := by decide

/-! ## C41 -/

section
variable {R : Type} [LinearOrder R]

/-- C41 (p-value tests): a retained pair is never reported independent, in any state, for any statistic and threshold. -/
theorem C41_retained {U : UGraph Int} {x y : Int} (hx : x ∈ U.nodes) (hy : y ∈ U.nodes) (h : x ∈ U.adj y ∨ y ∈ U.adj x)
    (stat : Int → Int → List Int → Py R) (t : R) (s : CiState R) (zz : List Int) :
    (statCondIndep U stat t s x y zz).1 = .ok false := by
  unfold statCondIndep
  rw [isConnected_ok hx hy]
  simp [h]

/-- C41, negation for the conditional-mutual-information test: every retained pair is reported independent. -/
theorem C41_cmi_inverted {U : UGraph Int} {x y : Int} (hx : x ∈ U.nodes) (hy : y ∈ U.nodes) (h : x ∈ U.adj y ∨ y ∈ U.adj x)
    (stat : Int → Int → List Int → Py R) (t : R) (s : CiState R) (zz : List Int) :
    (cmiCondIndep U stat t s x y zz).1 = .ok true := by
  unfold cmiCondIndep
  simp only [C41_retained hx hy h stat t s zz]
  rfl

/-- C41 (partial): for a pair that is not retained the CMI test reports independence exactly when the statistic is at most
the threshold. Missing: the claim about retained pairs is false (`C41_cmi_inverted`). -/
theorem C41_cmi_partial {U : UGraph Int} {x y : Int} (hx : x ∈ U.nodes) (hy : y ∈ U.nodes)
    (h : ¬ (x ∈ U.adj y ∨ y ∈ U.adj x)) {n : Nat} (stat : Int → Int → List Int → R) (t : R) (zz : List Int)
    (hv : ValidQuery n x y zz) (countTests useCache : Bool) :
    (cmiCondIndep U (fun x y zz => .ok (stat x y zz)) t (CiState.init n countTests useCache) x y zz).1 =
      .ok (decide (stat x y zz ≤ t)) := by
  have key : (statCondIndep U (fun x y zz => .ok (stat x y zz)) t (CiState.init n countTests useCache) x y zz).1 =
      .ok (decide (t < stat x y zz)) := by
    have hg : (CiState.init (R := R) n countTests useCache).cache.get x y zz = none := by
      simp only [CiState.init]
      exact CacheCI.init_get _ _ _ _
    unfold statCondIndep
    rw [isConnected_ok hx hy]
    simp only [h, decide_false, hg]
    have hcount : ∀ l, (CiState.init (R := R) n countTests useCache).counter = some l → l.length = n - 1 := by
      intro l hl
      simp only [CiState.init] at hl
      split_ifs at hl
      cases hl; simp
    obtain ⟨s2, b1, b2, b3, _⟩ := count_ok (n := n) hcount hv.length_lt
    simp only [b1]
    cases useCache with
    | false => simp [CiState.store, b3, CiState.init]
    | true =>
      have hk : s2.cache.Keys n := by rw [b2]; exact CacheCI.init_keys n
      obtain ⟨c', k1, _⟩ := (CacheCI.set_spec hk x y zz (stat x y zz)).2 hv.1
      have : s2.isCache = true := by rw [b3]; rfl
      simp only [CiState.store, this, if_true]
      rw [py_bind k1]
      rfl
  unfold cmiCondIndep
  simp only [key, Except.map]
  simp [← not_lt]

end

/-- A graph of retained edges with the edge 0 – 1. -/
def exRet : UGraph Int := ⟨{0, 1, 2}, fun v => if v = 0 then {1} else if v = 1 then {0} else ∅⟩

example : (0 ∈ exRet.nodes ∧ 1 ∈ exRet.nodes ∧ 2 ∈ exRet.nodes) ∧ (0 ∈ exRet.adj 1 ∨ 1 ∈ exRet.adj 0) ∧
    ¬ (0 ∈ exRet.adj 2 ∨ 2 ∈ exRet.adj 0) ∧ ValidQuery 3 0 2 [1] :=
  ⟨by decide, by decide, by decide, ⟨by decide, by decide, by decide, by decide, by decide⟩, by decide, by decide⟩

end Verif
