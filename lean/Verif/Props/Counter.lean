import Verif.Lemmas.Counter
import Verif.Props.CiTest

/-!
# C82: the counters of the CI tests
-/

namespace Verif
open CiState

theorem counts_criterion {n : Nat} {crit : Int → Int → List Int → Py Bool} (hc : ∀ x y zz, ValidQuery n x y zz → ∃ r, crit x y zz = .ok r) :
    Counts n (ValidQuery n) (fun _ _ zz => some zz) (critCondIndep crit) := by
  refine ⟨?_, ?_, ?_, ?_⟩
  · rintro x y zz _ hv ⟨⟩
    exact hv
  · rintro s x y zz - ⟨⟩
  · rintro s x y zz _ r hv ⟨⟩ hg
    simp only [critCondIndep, hg]
  · rintro s x y zz _ hv ⟨⟩ hg
    obtain ⟨r, hr⟩ := hc x y zz hv
    refine ⟨r, fun s1 s2 h1 h2 => ?_⟩
    simp only [critCondIndep, hg, hr, h1, h2]

/-- C82 (graph criteria): with counting, the counter at `k` after any history of valid queries and deletions is the number of queries
with `k` conditioning variables that need a computation: all of them without cache; with cache, those that were not asked before, in
whatever order of the arguments, or whose result was deleted since. -/
theorem C82_criterion {n : Nat} {crit : Int → Int → List Int → Py Bool} (hc : ∀ x y zz, ValidQuery n x y zz → ∃ r, crit x y zz = .ok r)
    (useCache : Bool) (ops : List CiOp) (hops : ∀ x y zz, CiOp.query x y zz ∈ ops → ValidQuery n x y zz) :
    (after (critCondIndep crit) (CiState.init n true useCache) ops).counter =
      some ((List.range (n - 1)).map (fun k => computed useCache k [] ops)) := by
  rw [counts_after (counts_criterion hc) ops [] _ _ (counted_init n useCache) hops]
  have : ∀ ops, effective (fun _ _ zz => some zz) ops = ops := by
    intro ops
    induction ops with
    | nil => rfl
    | cons op ops ih => cases op <;> simp [effective, ih]
  congr 1
  refine List.map_congr_left fun k _ => ?_
  rw [this]
  simp [List.getD, List.getElem?_replicate]
  split_ifs <;> rfl

/-- C82 (static conditioning): the size that is counted is that of the union of the given and the static conditioning variables. -/
theorem C82_static (o : SetOrder Int) {n : Nat} {crit : Int → Int → List Int → Py Bool}
    (hc : ∀ x y zz, ValidQuery n x y zz → ∃ r, crit x y zz = .ok r) (st : List Int) (useCache : Bool) (ops : List CiOp)
    (hops : ∀ x y zz, CiOp.query x y zz ∈ ops → CacheCI.InRange n x y ∧ ∀ z, z ∈ zz ∨ z ∈ st → 0 ≤ z ∧ z < n ∧ z ≠ x ∧ z ≠ y) :
    (after (graphCondIndep o crit (some st)) (CiState.init n true useCache) ops).counter =
      some ((List.range (n - 1)).map (fun k => computed useCache k []
        (effective (fun x y zz => some (o.iter (x, y, zz) (zz ++ st).toFinset)) ops))) := by
  have hcounts : Counts n (fun x y zz => CacheCI.InRange n x y ∧ ∀ z, z ∈ zz ∨ z ∈ st → 0 ≤ z ∧ z < n ∧ z ≠ x ∧ z ≠ y)
      (fun x y zz => some (o.iter (x, y, zz) (zz ++ st).toFinset)) (graphCondIndep o crit (some st)) := by
    have hval : ∀ x y zz, (CacheCI.InRange n x y ∧ ∀ z, z ∈ zz ∨ z ∈ st → 0 ≤ z ∧ z < n ∧ z ≠ x ∧ z ≠ y) →
        ValidQuery n x y (o.iter (x, y, zz) (zz ++ st).toFinset) := by
      intro x y zz h
      refine ⟨h.1, o.nodup _ _, fun z hz => h.2 z ?_⟩
      rw [o.mem, List.mem_toFinset, List.mem_append] at hz
      exact hz
    refine ⟨?_, ?_, ?_, ?_⟩
    · rintro x y zz _ hv ⟨⟩
      exact hval x y zz hv
    · rintro s x y zz - ⟨⟩
    · rintro s x y zz _ r hv ⟨⟩ hg
      simp only [graphCondIndep, critCondIndep, hg]
    · rintro s x y zz _ hv ⟨⟩ hg
      obtain ⟨r, hr⟩ := hc x y _ (hval x y zz hv)
      refine ⟨r, fun s1 s2 h1 h2 => ?_⟩
      simp only [graphCondIndep, critCondIndep, hg, hr, h1, h2]
  rw [counts_after hcounts ops [] _ _ (counted_init n useCache) hops]
  congr 1
  refine List.map_congr_left fun k _ => ?_
  simp [List.getD, List.getElem?_replicate]
  split_ifs <;> rfl

section
variable {R : Type} [LinearOrder R]

/-- The tests behind the queries of a statistical test: none for a retained pair. -/
def unretained (U : UGraph Int) (x y : Int) (zz : List Int) : Option (List Int) :=
  if x ∈ U.adj y ∨ y ∈ U.adj x then none else some zz

theorem counts_statistic {n : Nat} {stat : Int → Int → List Int → Py R} (hs : ∀ x y zz, ValidQuery n x y zz → ∃ r, stat x y zz = .ok r)
    (t : R) {U : UGraph Int} (hU : ∀ x, x ∈ U.nodes ↔ 0 ≤ x ∧ x < n) :
    Counts n (ValidQuery n) (unretained U) (statCondIndep U stat t) := by
  have hcon : ∀ {x y zz}, ValidQuery n x y zz → U.isConnected x y = .ok (decide (x ∈ U.adj y ∨ y ∈ U.adj x)) := fun hv =>
    isConnected_ok ((hU _).mpr ⟨hv.1.1, hv.1.2.1⟩) ((hU _).mpr ⟨hv.1.2.2.1, hv.1.2.2.2.1⟩)
  refine ⟨?_, ?_, ?_, ?_⟩
  · intro x y zz zz' hv he
    unfold unretained at he
    split_ifs at he
    cases he
    exact hv
  · intro s x y zz hv he
    unfold unretained at he
    split_ifs at he with hr
    simp only [statCondIndep, hcon hv, hr, decide_true]
  · intro s x y zz zz' r hv he hg
    unfold unretained at he
    split_ifs at he with hr
    cases he
    simp only [statCondIndep, hcon hv, hr, decide_false, hg]
  · intro s x y zz zz' hv he hg
    unfold unretained at he
    split_ifs at he with hr
    cases he
    obtain ⟨r, hst⟩ := hs x y zz hv
    refine ⟨r, fun s1 s2 h1 h2 => ?_⟩
    simp only [statCondIndep, hcon hv, hr, decide_false, hg, hst]
    -- the statistical tests count first and store then
    simp only [CiState.store] at h1
    by_cases hc : s.isCache = true
    · rw [if_pos hc] at h1
      cases k1 : s.cache.set x y zz r with
      | error e =>
        rw [k1] at h1
        cases h1
      | ok c =>
      rw [py_bind k1] at h1
      cases h1
      simp only [CiState.count] at h2 ⊢
      cases hcn : s.counter with
      | none =>
        simp only [hcn] at h2 ⊢
        cases h2
        simp only [CiState.store, hc, if_true]
        rw [py_bind k1, hcn]
        rfl
      | some l =>
        simp only [hcn] at h2 ⊢
        cases hl : l[zz.length]? with
        | none => simp [hl] at h2
        | some m =>
          simp only [hl] at h2 ⊢
          cases h2
          simp only [CiState.store, hc, if_true]
          rw [py_bind k1]
          rfl
    · rw [if_neg hc] at h1
      cases h1
      simp only [h2]
      have : s2.isCache = s.isCache := by
        simp only [CiState.count] at h2
        split at h2
        · cases h2; rfl
        · split at h2
          · cases h2
          · cases h2; rfl
      simp only [CiState.store, this, hc]
      rfl

/-- C82 (statistical tests): as for the graph criteria; queries for retained pairs are not counted. The partial-correlation test and
the mutual-information test count in the same way. -/
theorem C82_statistic {n : Nat} {stat : Int → Int → List Int → Py R} (hs : ∀ x y zz, ValidQuery n x y zz → ∃ r, stat x y zz = .ok r)
    (t : R) {U : UGraph Int} (hU : ∀ x, x ∈ U.nodes ↔ 0 ≤ x ∧ x < n) (useCache : Bool) (ops : List CiOp)
    (hops : ∀ x y zz, CiOp.query x y zz ∈ ops → ValidQuery n x y zz) :
    (after (statCondIndep U stat t) (CiState.init n true useCache) ops).counter =
      some ((List.range (n - 1)).map (fun k => computed useCache k [] (effective (unretained U) ops))) ∧
    (after (cmiCondIndep U stat t) (CiState.init n true useCache) ops).counter =
      some ((List.range (n - 1)).map (fun k => computed useCache k [] (effective (unretained U) ops))) := by
  have h1 : (after (statCondIndep U stat t) (CiState.init n true useCache) ops).counter =
      some ((List.range (n - 1)).map (fun k => computed useCache k [] (effective (unretained U) ops))) := by
    rw [counts_after (counts_statistic hs t hU) ops [] _ _ (counted_init n useCache) hops]
    congr 1
    refine List.map_congr_left fun k _ => ?_
    simp [List.getD, List.getElem?_replicate]
    split_ifs <;> rfl
  refine ⟨h1, ?_⟩
  rw [← h1]
  have : ∀ (ops : List CiOp) (s : CiState R), after (cmiCondIndep U stat t) s ops = after (statCondIndep U stat t) s ops := by
    intro ops
    induction ops with
    | nil => intro s; rfl
    | cons op ops ih => intro s; cases op <;> simp [after, ih, cmiCondIndep]
  rw [this]

end

/-- C82 (bound): with cache and without deletions every test is computed at most once, so at most `C(n,2) C(n-2,k)` tests with `k`
conditioning variables are counted, however long the history. -/
theorem C82_bound {n : Nat} (k : Nat) {ops : List CiOp} (hd : ∀ x y zz, CiOp.delete x y zz ∉ ops)
    (hops : ∀ x y zz, CiOp.query x y zz ∈ ops → ValidQuery n x y zz) :
    computed true k [] ops ≤ n.choose 2 * (n - 2).choose k := by
  have := computed_le (n := n) k ops [] hd (by simp [NoDeletes]) hops (by simp)
  refine this.trans ((Finset.card_le_card Finset.sdiff_subset).trans (testKeys_card k hops))

/-- C82 (too many conditioning variables): with counting, a computed test with `n - 1` or more conditioning variables raises
IndexError. -/
theorem C82_index_error {n : Nat} {crit : Int → Int → List Int → Py Bool} {x y : Int} {zz : List Int} (hr : ∃ r, crit x y zz = .ok r)
    (hxy : CacheCI.InRange n x y) (hz : n - 1 ≤ zz.length) (useCache : Bool) :
    (critCondIndep crit (CiState.init n true useCache) x y zz).1 = .error .indexError := by
  obtain ⟨r, hr⟩ := hr
  have hg : (CiState.init (R := Bool) n true useCache).cache.get x y zz = none := CacheCI.init_get _ x y zz
  have hcount : ∀ s : CiState Bool, s.counter = some (List.replicate (n - 1) 0) → s.count zz.length = .error .indexError := by
    intro s hs
    simp only [CiState.count, hs]
    have : (List.replicate (n - 1) 0)[zz.length]? = none := List.getElem?_eq_none (by simpa using hz)
    rw [this]
  simp only [critCondIndep, hg, hr]
  cases useCache with
  | true =>
    obtain ⟨c, h1, -⟩ := (CacheCI.set_spec (CacheCI.init_keys (R := Bool) n) x y zz r).2 hxy
    have : (CiState.init (R := Bool) n true true).store x y zz r = .ok { CiState.init (R := Bool) n true true with cache := c } := by
      simp only [CiState.store, CiState.init, if_true]
      rw [py_bind h1]
      rfl
    simp only [this]
    rw [hcount _ rfl]
  | false =>
    have : (CiState.init (R := Bool) n true false).store x y zz r = .ok (CiState.init n true false) := rfl
    simp only [this]
    rw [hcount _ rfl]

/-- C82, a disagreement: the graph criteria store a result before they count it. A query that raised IndexError is answered when it is
repeated, and is never counted; the statistical tests count first and raise again. -/
theorem C82_retry : ∃ (n : Nat) (crit : Int → Int → List Int → Py Bool) (x y : Int) (zz : List Int),
    answers (critCondIndep crit) (CiState.init n true true) [.query x y zz, .query x y zz] = [.error .indexError, .ok true] ∧
    answers (statCondIndep ⟨{0, 1}, fun _ => ∅⟩ (fun _ _ _ => .ok 1) (0 : Int)) (CiState.init n true true) [.query x y zz, .query x y zz] =
      [.error .indexError, .error .indexError] := by
  refine ⟨2, fun _ _ _ => .ok true, 0, 1, [5], ?_, ?_⟩ <;> decide +kernel

/-- The hypotheses are met: four nodes, a history with repetitions in other orders and one deletion. -/
def exCount : List CiOp := [.query 0 1 [2, 3], .query 1 0 [3, 2], .query 0 1 [2], .delete 1 0 [2, 3], .query 0 1 [3, 2], .query 2 3 [], .query 3 2 []]

example : (after (critCondIndep (fun _ _ _ => .ok true)) (CiState.init 4 true true) exCount).counter = some [1, 1, 2] ∧
    (after (critCondIndep (fun _ _ _ => .ok true)) (CiState.init 4 true false) exCount).counter = some [2, 1, 3] := by
  have hv : ∀ x y zz, CiOp.query x y zz ∈ exCount → ValidQuery 4 x y zz := by
    intro x y zz h
    simp only [exCount, List.mem_cons, CiOp.query.injEq, List.not_mem_nil, or_false, reduceCtorEq, false_or] at h
    rcases h with ⟨rfl, rfl, rfl⟩ | ⟨rfl, rfl, rfl⟩ | ⟨rfl, rfl, rfl⟩ | ⟨rfl, rfl, rfl⟩ | ⟨rfl, rfl, rfl⟩ | ⟨rfl, rfl, rfl⟩ <;>
      exact ⟨⟨by decide, by decide, by decide, by decide, by decide⟩, by decide, by decide⟩
  constructor
  · rw [C82_criterion (fun _ _ _ _ => ⟨_, rfl⟩) true exCount hv]
    decide +kernel
  · rw [C82_criterion (fun _ _ _ _ => ⟨_, rfl⟩) false exCount hv]
    decide +kernel

/-- A statistical test with the retained edge 0 – 1. -/
example : (after (statCondIndep ⟨{0, 1, 2, 3}, fun v => if v = 0 then {1} else if v = 1 then {0} else ∅⟩ (fun _ _ _ => .ok 1) (0 : Int))
    (CiState.init 4 true true) exCount).counter = some [1, 0, 0] := by
  decide +kernel

end Verif
