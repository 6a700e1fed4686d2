import Verif.Model.CiInit
import Verif.Props.Stats
import Verif.Props.ParCorrData
import Verif.Props.Pag

/-!
# C86: CI tests reject unsupported arguments when constructed, and constructed tests answer
-/

namespace Verif

/-! ## Specification -/

/-- The numbers of records and variables are known: from a data set with at least one record, all with a value for each variable, or,
without data, as positive numbers. -/
def SizesKnown {E : Type} (dataset : Option (List (List E))) (numRecords numVars : Option Int) (r v : Nat) : Prop :=
  (∃ data, dataset = some data ∧ numRecords = none ∧ numVars = none ∧ data.length = r ∧ 0 < r ∧ ∀ q ∈ data, q.length = v) ∨
  (dataset = none ∧ numRecords = some (r : Int) ∧ numVars = some (v : Int) ∧ 0 < r ∧ 0 < v)

/-- The sizes are given in an inconsistent way: in addition to data, or missing or not positive without data. -/
def SizesInconsistent {E : Type} (dataset : Option (List (List E))) (numRecords numVars : Option Int) : Prop :=
  (dataset ≠ none ∧ (numRecords ≠ none ∨ numVars ≠ none)) ∨
  (dataset = none ∧ ¬ ((∃ r, numRecords = some r ∧ 0 < r) ∧ ∃ v, numVars = some v ∧ 0 < v))

/-! ## The base class -/

theorem dataShape_iff {E : Type} {data : List (List E)} {r v : Nat} :
    dataShape data = .ok (r, v) ↔ data.length = r ∧ 0 < r ∧ ∀ q ∈ data, q.length = v := by
  cases data with
  | nil =>
    simp only [dataShape, List.length_nil, reduceCtorEq, false_iff]
    rintro ⟨rfl, h, -⟩
    omega
  | cons a as =>
    simp only [dataShape, List.length_cons, List.forall_mem_cons]
    split_ifs with h
    · simp only [Except.ok.injEq, Prod.mk.injEq]
      constructor
      · rintro ⟨rfl, rfl⟩; exact ⟨rfl, by omega, rfl, h⟩
      · rintro ⟨rfl, -, rfl, -⟩; exact ⟨rfl, rfl⟩
    · simp only [reduceCtorEq, false_iff]
      rintro ⟨-, -, rfl, h'⟩
      exact h h'

theorem dataShape_error {E : Type} {data : List (List E)} {e : PyErr} (h : dataShape data = .error e) : e = .valueError := by
  cases data with
  | nil => cases h; rfl
  | cons a as =>
    simp only [dataShape] at h
    split_ifs at h
    cases h; rfl

theorem statSizes_iff {E : Type} {dataset : Option (List (List E))} {nr nv : Option Int} {r v : Nat} :
    statSizes dataset nr nv = .ok (r, v) ↔ SizesKnown dataset nr nv r v := by
  cases dataset with
  | some data =>
    simp only [statSizes, SizesKnown, Option.some.injEq, reduceCtorEq, false_and, or_false]
    split_ifs with h
    · rw [dataShape_iff]
      constructor
      · intro h'; exact ⟨data, rfl, h.1, h.2, h'⟩
      · rintro ⟨d, rfl, -, -, h'⟩; exact h'
    · simp only [reduceCtorEq, false_iff]
      rintro ⟨d, rfl, h1, h2, -⟩
      exact h ⟨h1, h2⟩
  | none =>
    simp only [SizesKnown, reduceCtorEq, false_and, exists_false, false_or, true_and]
    cases nr with
    | none => simp [statSizes]
    | some a =>
      cases nv with
      | none =>
        simp only [statSizes, reduceCtorEq, false_and, and_false, iff_false]
        split_ifs <;> simp
      | some b =>
        simp only [statSizes, Option.some.injEq]
        split_ifs with h1 h2
        · simp only [Except.ok.injEq, Prod.mk.injEq]
          omega
        · simp only [reduceCtorEq, false_iff]
          omega
        · simp only [reduceCtorEq, false_iff]
          omega

theorem statSizes_assert {E : Type} {dataset : Option (List (List E))} {nr nv : Option Int} :
    statSizes dataset nr nv = .error .assertionError ↔ SizesInconsistent dataset nr nv := by
  cases dataset with
  | some data =>
    simp only [statSizes, SizesInconsistent, ne_eq, reduceCtorEq, not_false_eq_true, true_and, false_and, or_false]
    split_ifs with h
    · constructor
      · intro h'; exact absurd (dataShape_error h') (by decide)
      · intro h'; exact absurd h (by tauto)
    · simp only [true_iff]
      tauto
  | none =>
    simp only [SizesInconsistent, ne_eq, not_true_eq_false, false_and, false_or, true_and]
    cases nr with
    | none => simp [statSizes]
    | some a =>
      cases nv with
      | none =>
        simp only [statSizes, reduceCtorEq, false_and, exists_false, and_false, not_false_eq_true, iff_true]
        split_ifs <;> rfl
      | some b =>
        simp only [statSizes, Option.some.injEq, exists_eq_left']
        split_ifs with h1 h2
        · simp only [reduceCtorEq, false_iff]
          tauto
        · simp only [true_iff]
          tauto
        · simp only [true_iff]
          tauto

/-- C86 (statistical tests): the constructor succeeds iff the numbers of records and variables are known, from the data or as given;
inconsistent numbers raise AssertionError, and all other failures (records of different lengths, no records) are ValueError. The new test
retains the given edges, or none of the edges between `0..n-1`, and starts with an empty cache and zero counters. -/
theorem C86_statistical {E S : Type} (dataset : Option (List (List E))) (retained : Option (UGraph Int)) (countTests useCache : Bool)
    (nr nv : Option Int) :
    (∀ T : StatTest S, statTestInit dataset retained countTests useCache nr nv = .ok T ↔
      SizesKnown dataset nr nv T.numRecords T.numVars ∧
      T.retained = retained.getD (UGraph.empty ((List.range T.numVars).map Int.ofNat).toFinset) ∧
      T.state = CiState.init T.numVars countTests useCache) ∧
    (statTestInit (S := S) dataset retained countTests useCache nr nv = .error .assertionError ↔ SizesInconsistent dataset nr nv) ∧
    ∀ e, statTestInit (S := S) dataset retained countTests useCache nr nv = .error e → e = .assertionError ∨ e = .valueError := by
  cases h : statSizes dataset nr nv with
  | ok rv =>
    obtain ⟨r, v⟩ := rv
    have hinit : statTestInit (S := S) dataset retained countTests useCache nr nv =
        .ok ⟨r, v, retained.getD (UGraph.empty ((List.range v).map Int.ofNat).toFinset), CiState.init v countTests useCache⟩ := by
      rw [statTestInit, py_bind h]; rfl
    rw [hinit]
    refine ⟨fun T => ?_, ?_, by simp⟩
    · constructor
      · intro e; cases e; exact ⟨statSizes_iff.mp h, rfl, rfl⟩
      · rintro ⟨h1, h2, h3⟩
        rw [← statSizes_iff, h] at h1
        obtain ⟨r', v', U, s⟩ := T
        simp only [Except.ok.injEq, Prod.mk.injEq] at h1 h2 h3 ⊢
        obtain ⟨rfl, rfl⟩ := h1
        subst h2 h3
        rfl
    · simp only [reduceCtorEq, false_iff]
      intro h'
      rw [← statSizes_assert, h] at h'
      cases h'
  | error e =>
    have hinit : statTestInit (S := S) dataset retained countTests useCache nr nv = .error e := by
      rw [statTestInit, h]; rfl
    rw [hinit]
    refine ⟨fun T => ?_, ?_, ?_⟩
    · simp only [reduceCtorEq, false_iff]
      rintro ⟨h1, -⟩
      rw [← statSizes_iff, h] at h1
      cases h1
    · rw [← statSizes_assert, h]
      simp
    · rintro e' ⟨⟩
      by_cases ha : SizesInconsistent dataset nr nv
      · rw [← statSizes_assert, h] at ha
        cases ha; exact .inl rfl
      · right
        cases dataset with
        | some data =>
          have hs : nr = none ∧ nv = none := by
            by_contra hc
            refine ha (.inl ⟨by simp, ?_⟩)
            tauto
          rw [statSizes, if_pos hs] at h
          exact dataShape_error h
        | none =>
          refine absurd (.inr ⟨rfl, ?_⟩) ha
          rintro ⟨⟨r, rfl, hr⟩, v, rfl, hv⟩
          have := statSizes_iff.mpr (show SizesKnown (none : Option (List (List E))) (some r) (some v) r.toNat v.toNat from
            .inr ⟨rfl, by congr 1; omega, by congr 1; omega, by omega, by omega⟩)
          rw [h] at this
          cases this

/-- The default graph of retained edges: the variables are `0..n-1` and no pair is retained. -/
theorem default_retained (n : Nat) :
    (∀ x : Int, x ∈ (UGraph.empty ((List.range n).map Int.ofNat).toFinset).nodes ↔ 0 ≤ x ∧ x < n) ∧
    ∀ x y : Int, x ∉ (UGraph.empty ((List.range n).map Int.ofNat).toFinset).adj y := by
  refine ⟨fun x => ?_, fun x y => by simp [UGraph.empty]⟩
  simp only [UGraph.empty, List.mem_toFinset, List.mem_map, List.mem_range]
  constructor
  · rintro ⟨a, h, rfl⟩
    simp only [Int.ofNat_eq_natCast]
    omega
  · intro h
    exact ⟨x.toNat, by omega, by simp only [Int.ofNat_eq_natCast]; omega⟩

/-- C86 (the base class): an object of the base class never gives an answer for a pair that is not retained, whatever happened before:
TypeError, or IndexError if there are more conditioning variables than counters. -/
theorem C86_base {S : Type} (T : StatTest S) (s : CiState S) {x y : Int} (hx : x ∈ T.retained.nodes) (hy : y ∈ T.retained.nodes)
    (h : ¬ (x ∈ T.retained.adj y ∨ y ∈ T.retained.adj x)) (zz : List Int) :
    (baseAsk T s x y zz).1 = .error .typeError ∨ (baseAsk T s x y zz).1 = .error .indexError := by
  rw [baseAsk, isConnected_ok hx hy]
  simp only [h, decide_false]
  cases hc : s.count zz.length with
  | ok s' => exact .inl rfl
  | error e =>
    right
    dsimp only
    rw [CiState.count] at hc
    split at hc
    · cases hc
    · split at hc <;> cases hc
      rfl

/-- C86 (retained edges): if the graph of retained edges lacks a variable of the data, every query about this variable raises
KeyError, for every statistic and in every state. -/
theorem C86_retained {R : Type} [LinearOrder R] {U : UGraph Int} {x y : Int} (hU : ∀ u v, u ∈ U.adj v → u ∈ U.nodes ∧ v ∈ U.nodes)
    (h : x ∉ U.nodes ∨ y ∉ U.nodes) (stat : Int → Int → List Int → Py R) (t : R) (s : CiState R) (zz : List Int) :
    statCondIndep U stat t s x y zz = (.error .keyError, s) ∧ cmiCondIndep U stat t s x y zz = (.error .keyError, s) := by
  have hc : U.isConnected x y = .error .keyError := by
    rw [UGraph.isConnected, UGraph.get]
    by_cases hy : y ∈ U.nodes
    · have hx : x ∉ U.nodes := h.resolve_right fun h => h hy
      rw [if_pos hy, py_bind rfl, if_neg fun hm => hx (hU _ _ hm).1, UGraph.get, if_neg hx]
      rfl
    · rw [if_neg hy]
      rfl
  have h1 : statCondIndep U stat t s x y zz = (.error .keyError, s) := by rw [statCondIndep, hc]
  exact ⟨h1, by rw [cmiCondIndep, h1]; rfl⟩

/-! ## Partial correlation -/

/-- C86 (partial correlation, weights): weights are always rejected. -/
theorem C86_weights (dataset : Option (List (List ℝ))) (w : List ℝ) (retained : Option (UGraph Int)) (countTests useCache : Bool)
    (nr nv : Option Int) : parCorrTestInit dataset (some w) retained countTests useCache nr nv = .error .exception := rfl

/-- C86 (partial correlation, data): for data without constant columns the constructor succeeds; the answers of the new test, in every
history of valid queries and deletions, are the decision for the statistic of the data and "dependent" for retained pairs. -/
theorem C86_parcorr {data : List (List ℝ)} {m : Nat} (h2 : 2 ≤ data.length) (hl : ∀ r ∈ data, r.length = m)
    (hm : ∀ v < m, ¬ ConstantCol data v) (retained : Option (UGraph Int)) (hU : ∀ U ∈ retained, ∀ x, x ∈ U.nodes ↔ 0 ≤ x ∧ x < m)
    (countTests useCache : Bool) :
    ∃ T, parCorrTestInit (some data) none retained countTests useCache none none = .ok T ∧
      ∀ cdf nanInv (t : ℝ) ops, (∀ x y zz, CiOp.query x y zz ∈ ops → ValidQuery m x y zz) →
        answers (parCorrAsk cdf nanInv t T) T.1.state ops = pureAnswers (fun x y zz =>
          if ∃ U ∈ retained, x ∈ U.adj y ∨ y ∈ U.adj x then .ok false
          else (parCorrQuery cdf nanInv data x y zz).map fun v => decide ((t : WithBot ℝ) < v)) ops := by
  have hs : SizesKnown (some data) none none data.length m := .inl ⟨data, rfl, rfl, rfl, rfl, by omega, hl⟩
  have hT := ((C86_statistical (S := WithBot ℝ) (some data) retained countTests useCache none none).1
    ⟨data.length, m, retained.getD (UGraph.empty ((List.range m).map Int.ofNat).toFinset), CiState.init m countTests useCache⟩).mpr ⟨hs, rfl, rfl⟩
  refine ⟨_, (py_bind hT _).trans rfl, fun cdf nanInv t ops hops => ?_⟩
  have hv : ∀ v < m, covOf data v v ≠ 0 := fun v hv h => hm v hv ((covOf_self_eq_zero h2).mp h)
  have hU' : ∀ x, x ∈ (retained.getD (UGraph.empty ((List.range m).map Int.ofNat).toFinset)).nodes ↔ 0 ≤ x ∧ x < m := by
    cases retained with
    | none => exact (default_retained m).1
    | some U => exact hU U rfl
  refine ((C39_statistic (parCorrQuery_symm hv cdf nanInv) (t : WithBot ℝ) _ hU' ops hops countTests useCache).1).trans ?_
  refine pureAnswers_congr (fun x y zz hq => ?_) ops hops
  rw [pDecision]
  have : (x ∈ (retained.getD (UGraph.empty ((List.range m).map Int.ofNat).toFinset)).adj y ∨
      y ∈ (retained.getD (UGraph.empty ((List.range m).map Int.ofNat).toFinset)).adj x) ↔ ∃ U ∈ retained, x ∈ U.adj y ∨ y ∈ U.adj x := by
    cases retained with
    | none => simp [UGraph.empty]
    | some U => simp
  simp only [this]

/-- C86, a disagreement: the partial-correlation test can be constructed without data, but then raises TypeError for every pair that is
not retained, in every history; only retained pairs are answered. -/
theorem C86_parcorr_no_data {r v : Int} (hr : 0 < r) (hv : 0 < v) (retained : Option (UGraph Int))
    (hU : ∀ U ∈ retained, ∀ x, x ∈ U.nodes ↔ 0 ≤ x ∧ x < v) (countTests useCache : Bool) :
    ∃ T, parCorrTestInit none none retained countTests useCache (some r) (some v) = .ok T ∧
      ∀ cdf nanInv (t : ℝ) ops, (∀ x y zz, CiOp.query x y zz ∈ ops → ValidQuery v.toNat x y zz) →
        answers (parCorrAsk cdf nanInv t T) T.1.state ops = pureAnswers (fun x y _ =>
          if ∃ U ∈ retained, x ∈ U.adj y ∨ y ∈ U.adj x then .ok false else .error .typeError) ops := by
  have hs : SizesKnown (none : Option (List (List ℝ))) (some r) (some v) r.toNat v.toNat :=
    .inr ⟨rfl, by congr 1; omega, by congr 1; omega, by omega, by omega⟩
  have hT := ((C86_statistical (S := WithBot ℝ) none retained countTests useCache (some r) (some v)).1
    ⟨r.toNat, v.toNat, retained.getD (UGraph.empty ((List.range v.toNat).map Int.ofNat).toFinset),
      CiState.init v.toNat countTests useCache⟩).mpr ⟨hs, rfl, rfl⟩
  refine ⟨_, (py_bind hT _).trans rfl, fun cdf nanInv t ops hops => ?_⟩
  have hU' : ∀ x, x ∈ (retained.getD (UGraph.empty ((List.range v.toNat).map Int.ofNat).toFinset)).nodes ↔ 0 ≤ x ∧ x < v.toNat := by
    cases retained with
    | none => exact (default_retained v.toNat).1
    | some U =>
      intro x
      rw [Option.getD_some, hU U rfl x]
      omega
  have hsym : SymTest v.toNat (fun _ _ _ => .error .typeError : Int → Int → List Int → Py (WithBot ℝ)) := fun x y zz _ => ⟨rfl, fun _ _ => rfl⟩
  refine ((C39_statistic hsym (t : WithBot ℝ) _ hU' ops hops countTests useCache).1).trans ?_
  refine pureAnswers_congr (fun x y zz hq => ?_) ops hops
  rw [pDecision]
  have : (x ∈ (retained.getD (UGraph.empty ((List.range v.toNat).map Int.ofNat).toFinset)).adj y ∨
      y ∈ (retained.getD (UGraph.empty ((List.range v.toNat).map Int.ofNat).toFinset)).adj x) ↔
      ∃ U ∈ retained, x ∈ U.adj y ∨ y ∈ U.adj x := by
    cases retained with
    | none => simp [UGraph.empty]
    | some U => simp
  simp only [this]
  rfl

/-! ## Mutual information -/

/-- C86 (mutual information): without data the constructor raises AssertionError. For records of non-negative integers it succeeds, and
the new test answers every valid query, in every history. -/
theorem C86_cmi (weights : Option (List ℝ)) (retained : Option (UGraph Int)) (countTests useCache : Bool) :
    cmiTestInit none weights retained countTests useCache = .error .assertionError ∧
    ∀ (data : List (List Int)) (m : Nat), data ≠ [] → (∀ r ∈ data, r.length = m) → (∀ r ∈ data, ∀ a ∈ r, 0 ≤ a) →
      (∀ w, weights = some w → w.length = data.length ∧ ∀ a ∈ w, 0 ≤ a) → (∀ U ∈ retained, ∀ x, x ∈ U.nodes ↔ 0 ≤ x ∧ x < m) →
      ∃ T, cmiTestInit (some data) weights retained countTests useCache = .ok T ∧
        ∀ (t : ℝ) ops, (∀ x y zz, CiOp.query x y zz ∈ ops → ValidQuery m x y zz) →
          answers (T.ask t) T.base.state ops = pureAnswers (fun x y zz => .ok (decide ((∃ U ∈ retained, x ∈ U.adj y ∨ y ∈ U.adj x) ∨
            empiricalCmi (data.zip (weights.getD (List.replicate data.length 1))) x.toNat y.toNat (zz.map Int.toNat) ≤ t))) ops := by
  refine ⟨rfl, fun data m hne hm h0 hw hU => ?_⟩
  have hs : SizesKnown (some data) none none data.length m := .inl ⟨data, rfl, rfl, rfl, rfl, List.length_pos_iff.mpr hne, hm⟩
  have hT := ((C86_statistical (S := ℝ) (some data) retained countTests useCache none none).1
    ⟨data.length, m, retained.getD (UGraph.empty ((List.range m).map Int.ofNat).toFinset), CiState.init m countTests useCache⟩).mpr ⟨hs, rfl, rfl⟩
  obtain ⟨l, hl, -⟩ := C43_data hne hm h0 weights hw
  refine ⟨_, (py_bind hT _).trans ((py_bind hl _).trans rfl), fun t ops hops => ?_⟩
  have hU' : ∀ x, x ∈ (retained.getD (UGraph.empty ((List.range m).map Int.ofNat).toFinset)).nodes ↔ 0 ≤ x ∧ x < m := by
    cases retained with
    | none => exact (default_retained m).1
    | some U => exact hU U rfl
  obtain ⟨l', hl', ha⟩ := C43_cached hne hm h0 weights hw t _ hU' ops hops countTests useCache
  rw [hl] at hl'
  cases hl'
  refine Eq.trans ha ?_
  refine pureAnswers_congr (fun x y zz hq => ?_) ops hops
  have : (x ∈ (retained.getD (UGraph.empty ((List.range m).map Int.ofNat).toFinset)).adj y ∨
      y ∈ (retained.getD (UGraph.empty ((List.range m).map Int.ofNat).toFinset)).adj x) ↔ ∃ U ∈ retained, x ∈ U.adj y ∨ y ∈ U.adj x := by
    cases retained with
    | none => simp [UGraph.empty]
    | some U => simp
  simp only [this]

/-! ## Graph criteria -/

/-- C86 (graph criteria): exactly DAGs and PAGs are accepted, with no static conditioning or a tuple; all else is TypeError. -/
theorem C86_graph (o : SetOrder Int) (g : GraphArg) (st : StaticArg) (countTests useCache : Bool) :
    ((∃ T, graphTestInit o g st countTests useCache = .ok T) ↔ (∀ V, g ≠ .other V) ∧ st ≠ .other) ∧
    ∀ e, graphTestInit o g st countTests useCache = .error e → e = .typeError := by
  cases g <;> cases st <;>
    simp [graphTestInit, bind, Except.bind, pure, Except.pure]

/-- The variables a constructed test always conditions on. -/
def StaticArg.vars : StaticArg → List Int
  | .tuple l => l
  | _ => []

/-- The tuple a constructed test keeps. -/
def StaticArg.opt : StaticArg → Option (List Int)
  | .tuple l => some l
  | _ => Option.none

theorem graph_answers (o : SetOrder Int) {n : Nat} {crit : Int → Int → List Int → Py Bool} {P : Int → Int → Finset Int → Prop}
    (hcrit : ∀ x y zz, ValidQuery n x y zz → ∃ b, crit x y zz = .ok b ∧ (b = true ↔ P x y zz.toFinset))
    (hsymP : ∀ x y Z, P x y Z → P y x Z) {st : StaticArg} (hst : st ≠ .other) (countTests useCache : Bool) (ops : List CiOp)
    (hops : ∀ x y zz, CiOp.query x y zz ∈ ops → zz.Nodup ∧ CacheCI.InRange n x y ∧
      ∀ z, z ∈ zz ∨ z ∈ st.vars → 0 ≤ z ∧ z < n ∧ z ≠ x ∧ z ≠ y) :
    ∃ truth : Int → Int → List Int → Bool,
      (∀ x y zz, CiOp.query x y zz ∈ ops → (truth x y zz = true ↔ P x y (zz.toFinset ∪ st.vars.toFinset))) ∧
      answers (graphCondIndep o crit st.opt) (CiState.init n countTests useCache) ops =
        pureAnswers (fun x y zz => .ok (truth x y zz)) ops := by
  classical
  have hspec : ∀ x y zz, ValidQuery n x y zz → crit x y zz = .ok (decide (P x y zz.toFinset)) := by
    intro x y zz hv
    obtain ⟨b, h1, h2⟩ := hcrit x y zz hv
    rw [h1, Bool.eq_iff_iff.2 (h2.trans (by simp : P x y zz.toFinset ↔ decide (P x y zz.toFinset) = true))]
  have hsym : SymTest n crit := by
    intro x y zz hv
    constructor
    · rw [hspec _ _ _ hv, hspec _ _ _ hv.symm]
      congr 1
      rw [decide_eq_decide]
      exact ⟨hsymP _ _ _, hsymP _ _ _⟩
    · intro zz' hp
      rw [hspec _ _ _ hv, hspec x y zz' ⟨hv.1, (hp.nodup_iff).1 hv.2.1, fun z hz => hv.2.2 z (hp.mem_iff.2 hz)⟩]
      congr 1
      rw [decide_eq_decide, show zz.toFinset = zz'.toFinset from List.toFinset_eq_of_perm _ _ hp]
  refine ⟨fun x y zz => decide (P x y (zz.toFinset ∪ st.vars.toFinset)), by simp, ?_⟩
  cases st with
  | other => exact absurd rfl hst
  | none =>
    have hv : ∀ x y zz, CiOp.query x y zz ∈ ops → ValidQuery n x y zz := fun x y zz h =>
      ⟨(hops x y zz h).2.1, (hops x y zz h).1, fun z hz => (hops x y zz h).2.2 z (.inl hz)⟩
    refine (C39_criterion hsym ops hv countTests useCache).trans (pureAnswers_congr (fun x y zz hq => ?_) ops hv)
    rw [hspec x y zz hq]
    simp [StaticArg.vars]
  | tuple l =>
    refine (C39_static o hsym l ops (fun x y zz h => (hops x y zz h).2) countTests useCache).trans ?_
    have : ∀ ops' : List CiOp, (∀ op ∈ ops', op ∈ ops) →
        pureAnswers (fun x y zz => crit x y (o.iter (x, y, zz) (zz ++ l).toFinset)) ops' =
        pureAnswers (fun x y zz => .ok (decide (P x y (zz.toFinset ∪ (StaticArg.tuple l).vars.toFinset)))) ops' := by
      intro ops'
      induction ops' with
      | nil => intro _; rfl
      | cons op ops' ih =>
        intro h
        have ih := ih fun op hop => h op (List.mem_cons_of_mem _ hop)
        cases op with
        | delete x y zz => exact ih
        | query x y zz =>
          have hq := hops x y zz (h _ (by simp))
          simp only [pureAnswers]
          rw [ih, hspec x y _ ⟨hq.2.1, o.nodup _ _, fun z hz => hq.2.2 z (by simpa [o.mem, StaticArg.vars] using hz)⟩]
          have : (o.iter (x, y, zz) (zz ++ l).toFinset).toFinset = zz.toFinset ∪ (StaticArg.tuple l).vars.toFinset := by
            ext z; simp [o.mem, StaticArg.vars]
          rw [this]
    exact this ops fun _ h => h

/-- C86 (graph criteria, answers): a test constructed for a DAG or a PAG with nodes `0..n-1` answers every valid query, in every history:
for a DAG whether the pair is d-separated by the given and the static conditioning variables together, for a graph with edges `-->` and
`<->` whether it is m-separated. -/
theorem C86_graph_answers (o : SetOrder Int) {n : Nat} {st : StaticArg} (hst : st ≠ .other) (countTests useCache : Bool) (ops : List CiOp)
    (hops : ∀ x y zz, CiOp.query x y zz ∈ ops → zz.Nodup ∧ CacheCI.InRange n x y ∧
      ∀ z, z ∈ zz ∨ z ∈ st.vars → 0 ≤ z ∧ z < n ∧ z ≠ x ∧ z ≠ y) :
    (∀ G : Dag Int, G.WF → G.Acyclic → (∀ x, x ∈ G.nodes ↔ 0 ≤ x ∧ x < n) →
      ∃ T, graphTestInit o (.dag G) st countTests useCache = .ok T ∧ ∃ truth : Int → Int → List Int → Bool,
        (∀ x y zz, CiOp.query x y zz ∈ ops → (truth x y zz = true ↔ G.DSeparated x y (zz.toFinset ∪ st.vars.toFinset))) ∧
        answers (T.ask o) T.state ops = pureAnswers (fun x y zz => .ok (truth x y zz)) ops) ∧
    (∀ G : MG Int, G.Proper → Mark.arrow ∈ G.types → G.DirectedMixed → (∀ x, x ∈ G.nodes ↔ 0 ≤ x ∧ x < n) →
      ∃ T, graphTestInit o (.pag G) st countTests useCache = .ok T ∧ ∃ truth : Int → Int → List Int → Bool,
        (∀ x y zz, CiOp.query x y zz ∈ ops → (truth x y zz = true ↔ G.MSep x y (zz.toFinset ∪ st.vars.toFinset))) ∧
        answers (T.ask o) T.state ops = pureAnswers (fun x y zz => .ok (truth x y zz)) ops) := by
  have hcard : ∀ V : Finset Int, (∀ x, x ∈ V ↔ 0 ≤ x ∧ x < n) → V.card = n := by
    intro V hV
    have : V = Finset.Ico (0 : Int) n := by ext x; rw [hV, Finset.mem_Ico]
    rw [this, Int.card_Ico]
    omega
  constructor
  · intro G hG hac hn
    have hc : ∀ x y zz, ValidQuery n x y zz → ∃ b, G.dsep o x y zz.toFinset = .ok b ∧ (b = true ↔ G.DSeparated x y zz.toFinset) := by
      intro x y zz hv
      exact Dag.dsep_spec o hG hac ((hn x).2 ⟨hv.1.1, hv.1.2.1⟩) ((hn y).2 ⟨hv.1.2.2.1, hv.1.2.2.2.1⟩)
        (Z := zz.toFinset) (fun z hz => (hn z).2 ⟨(hv.2.2 z (by simpa using hz)).1, (hv.2.2 z (by simpa using hz)).2.1⟩)
        (fun h => (hv.2.2 x (by simpa using h)).2.2.1 rfl) (fun h => (hv.2.2 y (by simpa using h)).2.2.2 rfl)
    have h := graph_answers o (crit := fun x y zz => G.dsep o x y zz.toFinset) hc (fun x y Z h => (Dag.dseparated_symm hac).mp h) hst
      countTests useCache ops hops
    rw [← hcard G.nodes hn] at h
    cases st with
    | other => exact absurd rfl hst
    | none => exact ⟨_, rfl, h⟩
    | tuple l => exact ⟨_, rfl, h⟩
  · intro G hG hT hD hn
    have hc : ∀ x y zz, ValidQuery n x y zz → ∃ b, G.isMSeparated o x y zz.toFinset = .ok b ∧ (b = true ↔ G.MSep x y zz.toFinset) := by
      intro x y zz hv
      exact MG.isMSeparated_spec o hG hT hD ((hn x).2 ⟨hv.1.1, hv.1.2.1⟩) ((hn y).2 ⟨hv.1.2.2.1, hv.1.2.2.2.1⟩)
        (Z := zz.toFinset) (fun z hz => (hn z).2 ⟨(hv.2.2 z (by simpa using hz)).1, (hv.2.2 z (by simpa using hz)).2.1⟩)
        (fun h => (hv.2.2 x (by simpa using h)).2.2.1 rfl) (fun h => (hv.2.2 y (by simpa using h)).2.2.2 rfl)
    have h := graph_answers o (crit := fun x y zz => G.isMSeparated o x y zz.toFinset) hc (fun x y Z h => h.symm) hst
      countTests useCache ops hops
    rw [← hcard G.nodes hn] at h
    cases st with
    | other => exact absurd rfl hst
    | none => exact ⟨_, rfl, h⟩
    | tuple l => exact ⟨_, rfl, h⟩

/-- C86 (`DSep`): only DAGs are accepted; the test is the one `GraphCondIndep` builds without static conditioning. -/
theorem C86_dsep (o : SetOrder Int) (countTests useCache : Bool) :
    dsepTestInit o none countTests useCache = .error .assertionError ∧
    ∀ G, dsepTestInit o (some G) countTests useCache = graphTestInit o (.dag G) .none countTests useCache := ⟨rfl, fun _ => rfl⟩

/-! ## Concrete cases -/

/-- Sizes known from data, and as given; inconsistent sizes; ragged data, which is neither. -/
example : SizesKnown (some [[(0 : Int), 1, 2], [3, 4, 5]]) none none 2 3 ∧ SizesKnown (none : Option (List (List Int))) (some 10) (some 4) 10 4 ∧
    SizesInconsistent (some [[(0 : Int)]]) (some 1) none ∧ SizesInconsistent (none : Option (List (List Int))) (some 10) (some 0) ∧
    ¬ SizesInconsistent (some [[(0 : Int)], []]) none none ∧ statSizes (some [[(0 : Int)], []]) none none = .error .valueError := by
  refine ⟨.inl ⟨_, rfl, rfl, rfl, rfl, by omega, by simp⟩, .inr ⟨rfl, rfl, rfl, by omega, by omega⟩, .inl ⟨by simp, .inl (by simp)⟩,
    .inr ⟨rfl, ?_⟩, ?_, by decide⟩
  · rintro ⟨-, v, h, hv⟩
    cases h
    omega
  · simp [SizesInconsistent]

/-- The hypotheses of `C86_graph_answers` are met by `exDint`, conditioning on 1 throughout. -/
example : (StaticArg.tuple [1]) ≠ .other ∧ ∀ x y zz, CiOp.query x y zz ∈ [CiOp.query 0 3 [2], .delete 0 3 [1, 2], .query 3 0 [2]] →
    zz.Nodup ∧ CacheCI.InRange 4 x y ∧ ∀ z, z ∈ zz ∨ z ∈ (StaticArg.tuple [1]).vars → 0 ≤ z ∧ z < (4 : Nat) ∧ z ≠ x ∧ z ≠ y := by
  refine ⟨by simp, fun x y zz h => ?_⟩
  simp only [List.mem_cons, CiOp.query.injEq, reduceCtorEq, List.not_mem_nil, or_false, false_or] at h
  rcases h with ⟨rfl, rfl, rfl⟩ | ⟨rfl, rfl, rfl⟩ <;>
    exact ⟨by decide, ⟨by decide, by decide, by decide, by decide, by decide⟩, by simp [StaticArg.vars]⟩

/-- The hypotheses of `C86_parcorr` and `C86_cmi` are met, with the retained edge 0 – 1 of `exRet`; the variable 3 is missing there
(`C86_retained`). -/
example : (∃ data : List (List ℝ), 2 ≤ data.length ∧ (∀ r ∈ data, r.length = 3) ∧ ∀ v < 3, ¬ ConstantCol data v) ∧
    (∀ U ∈ some exRet, ∀ x, x ∈ U.nodes ↔ 0 ≤ x ∧ x < (3 : Nat)) ∧ (3 : Int) ∉ exRet.nodes ∧
    ∀ u v, u ∈ exRet.adj v → u ∈ exRet.nodes ∧ v ∈ exRet.nodes := by
  refine ⟨⟨[[0, 1, 5], [1, -1, 3]], by simp, by simp, ?_⟩, ?_, by decide, ?_⟩
  · intro v hv h
    have h := h [0, 1, 5] (by simp) [1, -1, 3] (by simp)
    obtain rfl | rfl | rfl : v = 0 ∨ v = 1 ∨ v = 2 := by omega
    all_goals norm_num at h
  · rintro U ⟨⟩ x
    simp only [exRet, Finset.mem_insert, Finset.mem_singleton]
    omega
  · intro u v h
    simp only [exRet] at h ⊢
    split_ifs at h <;> simp_all

end Verif
