import Verif.Lemmas.PcObjectErr
import Verif.Props.Pc
import Verif.Props.CiTest
import Verif.Props.ParCorrData
import Verif.Props.CmiCoding

/-!
# C98: PC with the test objects of the library
-/

namespace Verif

section
variable {R R' : Type} {m : Nat} {N : Finset Int}

/-- The queries about nodes among `0..m-1` are valid. -/
theorem Pc.Query.valid (hN : ∀ x ∈ N, 0 ≤ x ∧ x < m) {i j : Int} {l : List Int} (h : Pc.Query N i j l) : ValidQuery m i j l :=
  ⟨⟨(hN i h.1).1, (hN i h.1).2, (hN j h.2.1).1, (hN j h.2.1).2, h.2.2.1⟩, h.2.2.2.1,
    fun z hz => ⟨(hN z (h.2.2.2.2 z hz).1).1, (hN z (h.2.2.2.2 z hz).1).2, (h.2.2.2.2 z hz).2⟩⟩

theorem validOps_cons {x y : Int} {zz : List Int} (hv : ValidQuery m x y zz) {ops : List CiOp}
    (hops : ∀ x y zz, CiOp.query x y zz ∈ ops → ValidQuery m x y zz) :
    ∀ x' y' zz', CiOp.query x' y' zz' ∈ CiOp.query x y zz :: ops → ValidQuery m x' y' zz' := by
  intro x' y' zz' hm
  rcases List.mem_cons.mp hm with hm | hm
  · cases hm; exact hv
  · exact hops _ _ _ hm

/-- Two objects that answer alike in every history of valid queries are related. -/
theorem Pc.alike_objects (hN : ∀ x ∈ N, 0 ≤ x ∧ x < m) (ask : CiState R → Int → Int → List Int → Py Bool × CiState R)
    (ask' : CiState R' → Int → Int → List Int → Py Bool × CiState R') :
    Pc.Alike N ask ask' (fun s s' => ∀ ops, (∀ x y zz, CiOp.query x y zz ∈ ops → ValidQuery m x y zz) →
      answers ask s ops = answers ask' s' ops) := by
  refine ⟨fun s s' hs i j l hq => ?_, fun s s' hs i j l hq b _ ops hops => ?_⟩
  · have := hs [.query i j l] (validOps_cons (hq.valid hN) (by simp))
    exact (List.cons.inj this).1
  · exact (List.cons.inj (hs (.query i j l :: ops) (validOps_cons (hq.valid hN) hops))).2

/-- An object that gives the answers `f` in every history of valid queries is related to `f`. -/
theorem Pc.alike_answers (hN : ∀ x ∈ N, 0 ≤ x ∧ x < m) (ask : CiState R → Int → Int → List Int → Py Bool × CiState R)
    (f : Int → Int → List Int → Bool) :
    Pc.Alike N ask (Pc.ofCI fun _ => f) (fun s _ => ∀ ops, (∀ x y zz, CiOp.query x y zz ∈ ops → ValidQuery m x y zz) →
      answers ask s ops = pureAnswers (fun x y zz => .ok (f x y zz)) ops) := by
  refine ⟨fun s _ hs i j l hq => ?_, fun s _ hs i j l hq b _ ops hops => ?_⟩
  · have := hs [.query i j l] (validOps_cons (hq.valid hN) (by simp))
    exact (List.cons.inj this).1
  · exact (List.cons.inj (hs (.query i j l :: ops) (validOps_cons (hq.valid hN) hops))).2

/-- C98 (objects): if two test objects answer alike in every history of valid queries, PC ends with the same graph, separating sets and number
of tests, or with the same exception. -/
theorem C98_objects (o : SetOrder Int) (overwrite : Bool) (hN : ∀ x, x ∈ N ↔ 0 ≤ x ∧ x < m)
    {ask : CiState R → Int → Int → List Int → Py Bool × CiState R} {ask' : CiState R' → Int → Int → List Int → Py Bool × CiState R'}
    {s : CiState R} {s' : CiState R'}
    (h : ∀ ops, (∀ x y zz, CiOp.query x y zz ∈ ops → ValidQuery m x y zz) → answers ask s ops = answers ask' s' ops) :
    (Pc.learnStructureObj o ask overwrite (Pc.init o N) s).map Prod.fst =
      (Pc.learnStructureObj o ask' overwrite (Pc.init o N) s').map Prod.fst := by
  have hA := Pc.alike_objects (m := m) (fun x hx => (hN x).mp hx) ask ask'
  rcases Pc.learnStructureObj_same hA o overwrite h with ⟨e, h1, h2⟩ | ⟨a, s1, s2, h1, h2, -⟩
  · rw [h1, h2]; rfl
  · rw [h1, h2]; rfl

/-- C98 (answers): if the object gives the answers `f` in every history of valid queries, PC does not raise and its result is that of the
model of C21–C23 and C93–C95 with the test `f`. -/
theorem C98_answers (o : SetOrder Int) (overwrite : Bool) (hN : ∀ x, x ∈ N ↔ 0 ≤ x ∧ x < m)
    {ask : CiState R → Int → Int → List Int → Py Bool × CiState R} {s : CiState R} {f : Int → Int → List Int → Bool}
    (h : ∀ ops, (∀ x y zz, CiOp.query x y zz ∈ ops → ValidQuery m x y zz) →
      answers ask s ops = pureAnswers (fun x y zz => .ok (f x y zz)) ops) :
    ∃ st s', Pc.learnStructureObj o ask overwrite (Pc.init o N) s = .ok (st, s') ∧
      Pc.learnStructure o (fun _ => f) overwrite (Pc.init o N) = .ok st := by
  have hA := Pc.alike_answers (m := m) (fun x hx => (hN x).mp hx) ask f
  obtain ⟨-, st, -, h3, -⟩ := C21_structure o (fun _ => f) overwrite N
  have h4 := Pc.learnStructureObj_of o (fun _ => f) overwrite (Pc.init o N)
  rw [h3] at h4
  rcases Pc.learnStructureObj_same hA o overwrite (t := (Pc.init o N).calls) h with ⟨e, h1, h2⟩ | ⟨a, s1, s2, h1, h2, -⟩
  · rw [h4] at h2; cases h2
  · rw [h4] at h2; cases h2
    exact ⟨st, s1, h1, h3⟩

/-- C98 (cache and counter): with a statistic that does not depend on the order of its arguments, PC ends with the same result or the same
exception whether or not results are cached and tests are counted. The first part is for tests by p-value, the second for tests by mutual information. -/
theorem C98_cache [LinearOrder R] (o : SetOrder Int) (overwrite : Bool) (hN : ∀ x, x ∈ N ↔ 0 ≤ x ∧ x < m)
    {stat : Int → Int → List Int → Py R} (hs : SymTest m stat) (t : R) (U : UGraph Int) (hU : ∀ x, x ∈ U.nodes ↔ 0 ≤ x ∧ x < m)
    (countTests useCache countTests' useCache' : Bool) :
    (Pc.learnStructureObj o (statCondIndep U stat t) overwrite (Pc.init o N) (CiState.init m countTests useCache)).map Prod.fst =
      (Pc.learnStructureObj o (statCondIndep U stat t) overwrite (Pc.init o N) (CiState.init m countTests' useCache')).map Prod.fst ∧
    (Pc.learnStructureObj o (cmiCondIndep U stat t) overwrite (Pc.init o N) (CiState.init m countTests useCache)).map Prod.fst =
      (Pc.learnStructureObj o (cmiCondIndep U stat t) overwrite (Pc.init o N) (CiState.init m countTests' useCache')).map Prod.fst := by
  constructor
  · refine C98_objects o overwrite hN fun ops hops => ?_
    rw [(C39_statistic hs t U hU ops hops countTests useCache).1, (C39_statistic hs t U hU ops hops countTests' useCache').1]
  · refine C98_objects o overwrite hN fun ops hops => ?_
    rw [(C39_statistic hs t U hU ops hops countTests useCache).2, (C39_statistic hs t U hU ops hops countTests' useCache').2]

/-- C98 (d-separation): PC with a `DSep` object on a DAG, with or without cache and counter, does not raise and returns the CPDAG. -/
theorem C98_dsep (o o' o'' : SetOrder Int) (overwrite : Bool) {D : Dag Int} (hD : D.WF) (hac : D.Acyclic)
    (hN : ∀ x, x ∈ D.nodes ↔ 0 ≤ x ∧ x < m) (countTests useCache : Bool) :
    ∃ st s P, Pc.learnStructureObj o (critCondIndep (fun x y zz => D.dsep o' x y zz.toFinset)) overwrite (Pc.init o D.nodes)
        (CiState.init m countTests useCache) = .ok (st, s) ∧
      D.convertToCpdag o'' [1, 2, 3] (MG.pdagEmpty D.nodes) = .ok P ∧ st.graph.Same P := by
  classical
  obtain ⟨st, s, h1, h2⟩ := C98_answers (m := m) (N := D.nodes) o overwrite hN
    (ask := critCondIndep (fun x y zz => D.dsep o' x y zz.toFinset)) (s := CiState.init m countTests useCache)
    (f := fun x y zz => decide (D.DSeparated x y zz.toFinset)) (fun ops hops => by
      obtain ⟨truth, t1, t2⟩ := C39_dsep o' hD hac hN ops hops countTests useCache
      rw [t2]
      refine pureAnswers_congr (fun x y zz hv => ?_) ops hops
      congr 1
      rw [Bool.eq_iff_iff, t1 x y zz hv, decide_eq_true_iff])
  obtain ⟨st', P, g1, g2, g3⟩ := C23_pc_cpdag o o'' overwrite hD hac (ci := fun _ x y zz => decide (D.DSeparated x y zz.toFinset))
    (fun k i j l _ _ _ _ _ _ => decide_eq_true_iff)
  rw [h2] at g1; cases g1
  exact ⟨st, s, P, h1, g2, g3⟩

end

section
variable {m : Nat} {N : Finset Int}

/-- C98 (units): what PC learns from continuous data with the partial-correlation test does not depend on the units of the variables, nor on
the options for caching and counting. -/
theorem C98_units {data data' : List (List ℝ)} (o : SetOrder Int) (overwrite : Bool) (hN : ∀ x, x ∈ N ↔ 0 ≤ x ∧ x < m) {k c : Nat → ℝ}
    (hr : Rescaled m k c data data') (hk : ∀ v < m, k v ≠ 0) (h2 : 2 ≤ data.length) (hm : ∀ v < m, ¬ ConstantCol data v) (cdf : ℝ → ℝ)
    (nanInv nanInv' : Nat → Nat → List Nat → Py (WithBot ℝ)) {t : ℝ} (ht : 0 ≤ t) (U : UGraph Int) (hU : ∀ x, x ∈ U.nodes ↔ 0 ≤ x ∧ x < m)
    (countTests useCache countTests' useCache' : Bool) :
    (Pc.learnStructureObj o (statCondIndep U (parCorrQuery cdf nanInv' data') (t : WithBot ℝ)) overwrite (Pc.init o N)
      (CiState.init m countTests' useCache')).map Prod.fst =
    (Pc.learnStructureObj o (statCondIndep U (parCorrQuery cdf nanInv data) (t : WithBot ℝ)) overwrite (Pc.init o N)
      (CiState.init m countTests useCache)).map Prod.fst :=
  C98_objects o overwrite hN fun ops hops =>
    C83_units hr hk h2 hm cdf nanInv nanInv' ht U hU ops hops countTests useCache countTests' useCache'

/-- C98 (records): nor on the order of the records, even if the run ends with an exception. -/
theorem C98_records {data data' : List (List ℝ)} (o : SetOrder Int) (overwrite : Bool) (hp : data.Perm data') (cdf : ℝ → ℝ)
    (nanInv : Nat → Nat → List Nat → Py (WithBot ℝ)) (t : WithBot ℝ) (U : UGraph Int) (s : CiState (WithBot ℝ)) :
    Pc.learnStructureObj o (statCondIndep U (parCorrQuery cdf nanInv data') t) overwrite (Pc.init o N) s =
      Pc.learnStructureObj o (statCondIndep U (parCorrQuery cdf nanInv data) t) overwrite (Pc.init o N) s := by
  have : parCorrQuery cdf nanInv data' = parCorrQuery cdf nanInv data := by
    funext x y zz
    exact (C83_records hp cdf nanInv _ _ _).symm
  rw [this]

/-- C98 (categorical data): PC with the mutual-information test does not raise; its result is that of the model with the test "retained edge or
empirical conditional mutual information at most the threshold". -/
theorem C98_cmi {data : List (List Int)} (o : SetOrder Int) (overwrite : Bool) (hN : ∀ x, x ∈ N ↔ 0 ≤ x ∧ x < m) (hne : data ≠ [])
    (hm : ∀ r ∈ data, r.length = m) (h0 : ∀ r ∈ data, ∀ a ∈ r, 0 ≤ a) (weights : Option (List ℝ))
    (hw : ∀ w, weights = some w → w.length = data.length ∧ ∀ a ∈ w, 0 ≤ a) (t : ℝ) (U : UGraph Int)
    (hU : ∀ x, x ∈ U.nodes ↔ 0 ≤ x ∧ x < m) (countTests useCache : Bool) :
    ∃ l st s, getVarSize data m = .ok l ∧
      Pc.learnStructureObj o (cmiCondIndep U (fun x y zz => cmiStatistic data l weights x.toNat y.toNat (zz.map Int.toNat)) t) overwrite
        (Pc.init o N) (CiState.init m countTests useCache) = .ok (st, s) ∧
      Pc.learnStructure o (fun _ x y zz => decide ((x ∈ U.adj y ∨ y ∈ U.adj x) ∨
        empiricalCmi (data.zip (weights.getD (List.replicate data.length 1))) x.toNat y.toNat (zz.map Int.toNat) ≤ t)) overwrite
        (Pc.init o N) = .ok st := by
  obtain ⟨l, h1, -⟩ := C43_cached hne hm h0 weights hw t U hU [] (by simp) countTests useCache
  obtain ⟨st, s, g1, g2⟩ := C98_answers (m := m) (N := N) o overwrite hN
    (ask := cmiCondIndep U (fun x y zz => cmiStatistic data l weights x.toNat y.toNat (zz.map Int.toNat)) t)
    (s := CiState.init m countTests useCache)
    (f := fun x y zz => decide ((x ∈ U.adj y ∨ y ∈ U.adj x) ∨
        empiricalCmi (data.zip (weights.getD (List.replicate data.length 1))) x.toNat y.toNat (zz.map Int.toNat) ≤ t)) (fun ops hops => by
      obtain ⟨l', h1', h2⟩ := C43_cached hne hm h0 weights hw t U hU ops hops countTests useCache
      rw [h1] at h1'; cases h1'
      exact h2)
  exact ⟨l, st, s, h1, g1, g2⟩

/-- C98 (coding): what PC learns from categorical data does not depend on the coding of the categories. -/
theorem C98_coding {f : Nat → Int → Int} {data data' : List (List Int)} (o : SetOrder Int) (overwrite : Bool)
    (hN : ∀ x, x ∈ N ↔ 0 ≤ x ∧ x < m) (hr : Recoded m f data data')
    (hf : ∀ v < m, Function.Injective (f v)) (hne : data ≠ []) (h0 : ∀ r ∈ data, ∀ a ∈ r, 0 ≤ a) (h0' : ∀ r ∈ data', ∀ a ∈ r, 0 ≤ a)
    (weights : Option (List ℝ)) (hw : ∀ w, weights = some w → w.length = data.length ∧ ∀ a ∈ w, 0 ≤ a) (t : ℝ) (U : UGraph Int)
    (hU : ∀ x, x ∈ U.nodes ↔ 0 ≤ x ∧ x < m) (countTests useCache countTests' useCache' : Bool) :
    ∃ l l', getVarSize data m = .ok l ∧ getVarSize data' m = .ok l' ∧
      (Pc.learnStructureObj o (cmiCondIndep U (fun x y zz => cmiStatistic data' l' weights x.toNat y.toNat (zz.map Int.toNat)) t) overwrite
        (Pc.init o N) (CiState.init m countTests' useCache')).map Prod.fst =
      (Pc.learnStructureObj o (cmiCondIndep U (fun x y zz => cmiStatistic data l weights x.toNat y.toNat (zz.map Int.toNat)) t) overwrite
        (Pc.init o N) (CiState.init m countTests useCache)).map Prod.fst := by
  obtain ⟨l, l', h1, h2, -⟩ := C84_coding hr hf hne h0 h0' weights hw t U hU [] (by simp) countTests useCache countTests' useCache'
  refine ⟨l, l', h1, h2, C98_objects o overwrite hN fun ops hops => ?_⟩
  obtain ⟨k, k', g1, g2, g3⟩ := C84_coding hr hf hne h0 h0' weights hw t U hU ops hops countTests useCache countTests' useCache'
  rw [h1] at g1; cases g1
  rw [h2] at g2; cases g2
  exact g3

/-- C98 (exceptions): PC raises no exception of its own. If it ends with an exception, a query about two different nodes and other nodes,
asked in a state that the test object can reach by such queries, raises it. -/
theorem C98_exceptions {α σ : Type} [LinearOrder α] (o : SetOrder α) (overwrite : Bool) (call : Pc.Call α σ) (N : Finset α) (s₀ : σ) :
    (∃ st s, Pc.learnStructureObj o call overwrite (Pc.init o N) s₀ = .ok (st, s) ∧ Pc.Reach N call s₀ s) ∨
      ∃ e s i j l, Pc.learnStructureObj o call overwrite (Pc.init o N) s₀ = .error e ∧ Pc.Reach N call s₀ s ∧ Pc.Query N i j l ∧
        (call s i j l).1 = .error e := by
  rcases Pc.learnStructureObj_fine (N := N) (call := call) o overwrite s₀ with ⟨a, s, h1, -, h2⟩ | h
  · exact Or.inl ⟨a, s, h1, h2⟩
  · exact Or.inr h

/-- `call` with a flag that is set when a query raises. -/
def Pc.flagged {α σ : Type} (call : Pc.Call α σ) : Pc.Call α (σ × Bool) := fun s i j l =>
  ((call s.1 i j l).1, (call s.1 i j l).2, s.2 || match (call s.1 i j l).1 with | .ok _ => false | .error _ => true)

theorem Pc.Reach.unflagged {α σ : Type} {call : Pc.Call α σ} {N : Finset α} {s₀ s : σ × Bool}
    (h : Pc.Reach N (Pc.flagged call) s₀ s) (h0 : s₀.2 = false) : s.2 = false := by
  induction h with
  | start => exact h0
  | step _ _ hb ih =>
    simp only [Pc.flagged] at hb ⊢
    rw [ih, hb]; rfl

/-- C98 (no exception is swallowed): if PC returns, no query has raised. -/
theorem C98_swallowed {α σ : Type} [LinearOrder α] (o : SetOrder α) (overwrite : Bool) (call : Pc.Call α σ) (N : Finset α) (s₀ : σ)
    {st : PcState α} {s : σ} {b : Bool}
    (h : Pc.learnStructureObj o (Pc.flagged call) overwrite (Pc.init o N) (s₀, false) = .ok (st, s, b)) : b = false := by
  rcases C98_exceptions o overwrite (Pc.flagged call) N (s₀, false) with ⟨st', s', h1, h2⟩ | ⟨e, s', i, j, l, h1, -⟩
  · rw [h] at h1; cases h1
    exact h2.unflagged rfl
  · rw [h] at h1; cases h1

/-- The partial-correlation test, in a state that can be reached by queries about the nodes, on data without constant columns: the only
exception is LinAlgError, and only if the correlation matrix of four or more variables is singular. -/
theorem Pc.parCorr_raises {data : List (List ℝ)} (hN : ∀ x ∈ N, 0 ≤ x ∧ x < m) (h2 : 2 ≤ data.length)
    (hm : ∀ v < m, ¬ ConstantCol data v) {cdf : ℝ → ℝ} {nanInv : Nat → Nat → List Nat → Py (WithBot ℝ)} {t : WithBot ℝ} {U : UGraph Int}
    (hU : ∀ x, x ∈ U.nodes ↔ 0 ≤ x ∧ x < m) {countTests useCache : Bool} {e : PyErr} {s : CiState (WithBot ℝ)} {i j : Int} {l : List Int}
    (hr : Pc.Reach N (statCondIndep U (parCorrQuery cdf nanInv data) t) (CiState.init m countTests useCache) s) (hq : Pc.Query N i j l)
    (he : (statCondIndep U (parCorrQuery cdf nanInv data) t s i j l).1 = .error e) :
    e = .linAlgError ∧ ∃ vs : List Nat, vs.Nodup ∧ 4 ≤ vs.length ∧ (∀ v ∈ vs, v < m) ∧
      (subMatrix (fun a b => (corrcoef data a b).getD 0) vs).det = 0 := by
  have hv : ∀ v < m, covOf data v v ≠ 0 := fun v hv h => hm v hv ((covOf_self_eq_zero h2).mp h)
  have hsym := parCorrQuery_symm hv cdf nanInv
  have hreach : ∀ s, Pc.Reach N (statCondIndep U (parCorrQuery cdf nanInv data) t) (CiState.init m countTests useCache) s →
      Sane m (parCorrQuery cdf nanInv data) s ∨ Plain m s := by
    intro s hs
    induction hs with
    | start =>
      cases useCache with
      | true => exact Or.inl (sane_init m _ countTests)
      | false => exact Or.inr (plain_init m countTests)
    | step _ hq _ ih =>
      rcases ih with ih | ih
      · exact Or.inl (stat_sane hsym U t ih (hq.valid hN)).2
      · exact Or.inr (stat_plain U t ih (hq.valid hN)).2
  have hq' := hq.valid hN
  have hans : (statCondIndep U (parCorrQuery cdf nanInv data) t s i j l).1 = statAnswer U (parCorrQuery cdf nanInv data) t i j l := by
    rcases hreach s hr with hs | hs
    · exact (stat_sane hsym U t hs hq').1
    · exact (stat_plain U t hs hq').1
  rw [hans] at he
  have hst : parCorrQuery cdf nanInv data i j l = .error e := by
    unfold statAnswer at he
    rw [isConnected_ok ((hU i).2 ⟨hq'.1.1, hq'.1.2.1⟩) ((hU j).2 ⟨hq'.1.2.2.1, hq'.1.2.2.2.1⟩)] at he
    by_cases hc : i ∈ U.adj j ∨ j ∈ U.adj i
    · simp only [hc, decide_true] at he; cases he
    · simp only [hc, decide_false] at he
      cases hp : parCorrQuery cdf nanInv data i j l with
      | error e' => rw [hp] at he; cases he; rfl
      | ok v => rw [hp] at he; cases he
  have hlt := query_lt hq'
  rw [parCorrQuery, parCorrData_eq fun v h => hv v (hlt v h)] at hst
  match hl : l.map Int.toNat with
  | [] =>
    rw [hl] at hst
    simp only [parCorrStatistic, parCorr] at hst
    split_ifs at hst <;> cases hst
  | [z] =>
    rw [hl] at hst
    simp only [parCorrStatistic, parCorr] at hst
    split_ifs at hst <;> cases hst
  | z :: z' :: zs =>
    rw [hl] at hst hlt
    simp only [parCorrStatistic, parCorr, invParCorr] at hst
    split_ifs at hst with hd
    · cases hst
      refine ⟨rfl, i.toNat :: j.toNat :: z :: z' :: zs, ?_, by simp, hlt, hd⟩
      rw [← hl]
      obtain ⟨⟨a1, a2, a3, a4, a5⟩, a6, a7⟩ := hq'
      refine List.nodup_cons.mpr ⟨?_, List.nodup_cons.mpr ⟨?_, ?_⟩⟩
      · simp only [List.mem_cons, List.mem_map, not_or, not_exists, not_and]
        refine ⟨by omega, fun x hx hxi => ?_⟩
        have := a7 x hx; omega
      · simp only [List.mem_map, not_exists, not_and]
        intro x hx hxi
        have := a7 x hx; omega
      · refine List.Nodup.map_on (fun x hx y hy hxy => ?_) a6
        have := a7 x hx; have := a7 y hy; omega
    · cases hst

/-- C98 (continuous data): on data without constant columns, PC with the partial-correlation test ends with a result or with a LinAlgError;
the latter only if the correlation matrix of four or more variables is singular. -/
theorem C98_singular {data : List (List ℝ)} (o : SetOrder Int) (overwrite : Bool) (hN : ∀ x, x ∈ N ↔ 0 ≤ x ∧ x < m)
    (h2 : 2 ≤ data.length) (hm : ∀ v < m, ¬ ConstantCol data v) (cdf : ℝ → ℝ) (nanInv : Nat → Nat → List Nat → Py (WithBot ℝ))
    (t : WithBot ℝ) (U : UGraph Int) (hU : ∀ x, x ∈ U.nodes ↔ 0 ≤ x ∧ x < m) (countTests useCache : Bool) :
    (∃ st s, Pc.learnStructureObj o (statCondIndep U (parCorrQuery cdf nanInv data) t) overwrite (Pc.init o N)
        (CiState.init m countTests useCache) = .ok (st, s)) ∨
      Pc.learnStructureObj o (statCondIndep U (parCorrQuery cdf nanInv data) t) overwrite (Pc.init o N)
        (CiState.init m countTests useCache) = .error .linAlgError ∧
      ∃ vs : List Nat, vs.Nodup ∧ 4 ≤ vs.length ∧ (∀ v ∈ vs, v < m) ∧
        (subMatrix (fun a b => (corrcoef data a b).getD 0) vs).det = 0 := by
  rcases C98_exceptions o overwrite (statCondIndep U (parCorrQuery cdf nanInv data) t) N (CiState.init m countTests useCache) with
    ⟨st, s, h, -⟩ | ⟨e, s, i, j, l, h, hr, hq, he⟩
  · exact Or.inl ⟨st, s, h⟩
  · obtain ⟨rfl, hd⟩ := Pc.parCorr_raises (fun x hx => (hN x).mp hx) h2 hm hU hr hq he
    exact Or.inr ⟨h, hd⟩

end

/-! ## The hypotheses are met -/

/-- The retained graph without edges on two variables. -/
def exNoRet : UGraph Int := ⟨{0, 1}, fun _ => ∅⟩

theorem exNoRet_nodes (x : Int) : x ∈ exNoRet.nodes ↔ 0 ≤ x ∧ x < (2 : Nat) := by
  simp only [exNoRet, Finset.mem_insert, Finset.mem_singleton]
  omega

theorem exObs_varies : ∀ v < 2, ¬ ConstantCol exObs v := by
  intro v hv h
  have h := h [0, 1, 5] (by simp [exObs]) [1, -1, 5] (by simp [exObs])
  obtain rfl | rfl : v = 0 ∨ v = 1 := by omega
  · norm_num at h
  · norm_num at h

/-- Two variables in other units. -/
example (o : SetOrder Int) (cdf : ℝ → ℝ) (nanInv : Nat → Nat → List Nat → Py (WithBot ℝ)) :=
  C98_units (m := 2) (N := {0, 1}) (k := fun v => if v = 0 then -2 else 3) (c := fun _ => 7) (data := exObs)
    (data' := [[7, 10], [5, 4], [3, 10]]) o true exNoRet_nodes
    (by refine .cons ?_ (.cons ?_ (.cons ?_ .nil)) <;> intro v hv <;> obtain rfl | rfl : v = 0 ∨ v = 1 := by omega
        all_goals norm_num)
    (by intro v hv; obtain rfl | rfl : v = 0 ∨ v = 1 := by omega
        all_goals norm_num)
    (by simp [exObs]) exObs_varies cdf nanInv nanInv (t := 1 / 20) (by norm_num) exNoRet exNoRet_nodes true true false false

example (o : SetOrder Int) (cdf : ℝ → ℝ) (nanInv : Nat → Nat → List Nat → Py (WithBot ℝ)) (t : WithBot ℝ) :=
  C98_singular (m := 2) (N := {0, 1}) o false exNoRet_nodes (by simp [exObs]) exObs_varies cdf nanInv t exNoRet exNoRet_nodes true true

example (o : SetOrder Int) (cdf : ℝ → ℝ) (nanInv : Nat → Nat → List Nat → Py (WithBot ℝ)) (t : WithBot ℝ) :=
  C98_cache (m := 2) (N := {0, 1}) o false exNoRet_nodes
    (parCorrQuery_symm (fun v hv h => exObs_varies v hv ((covOf_self_eq_zero (by simp [exObs])).mp h)) cdf nanInv) t exNoRet exNoRet_nodes
    true true false true

/-- Three records of two categorical variables, and the same in another coding. -/
example (o : SetOrder Int) :=
  C98_cmi (m := 2) (N := {0, 1}) (data := [[0, 1], [1, 0], [2, 1]]) o true exNoRet_nodes (by simp) (by decide) (by decide) none (by simp)
    (1 / 100) exNoRet exNoRet_nodes true true

example (o : SetOrder Int) :=
  C98_coding (m := 2) (N := {0, 1}) (f := fun v a => if v = 0 then 2 - a else 3 * a) (data := [[0, 1], [1, 0], [2, 1]])
    (data' := [[2, 3], [1, 0], [0, 3]]) o true exNoRet_nodes
    (by refine .cons ?_ (.cons ?_ (.cons ?_ .nil)) <;> refine ⟨rfl, rfl, ?_⟩ <;> decide)
    (by intro v _ a b h
        dsimp only at h
        split_ifs at h <;> omega)
    (by simp) (by decide) (by decide) none (by simp) (1 / 100) exNoRet exNoRet_nodes true true false false

/-- A DAG with two nodes and one edge. -/
example (o o' o'' : SetOrder Int) :=
  C98_dsep (m := 2) o o' o'' true (D := ⟨{0, 1}, fun v => if v = 1 then {0} else ∅⟩)
    (by intro a b h
        change a ∈ (if b = 1 then ({0} : Finset Int) else ∅) at h
        split_ifs at h with hb
        · obtain rfl := Finset.mem_singleton.mp h
          subst hb; decide
        · simp at h)
    (by intro v h
        have key : ∀ a b : Int, Relation.TransGen (Dag.Edge ⟨{0, 1}, fun v => if v = 1 then {0} else ∅⟩) a b → a < b := by
          intro a b h
          induction h with
          | single h =>
            rename_i b
            change a ∈ (if b = 1 then ({0} : Finset Int) else ∅) at h
            split_ifs at h with hb
            · obtain rfl := Finset.mem_singleton.mp h
              subst hb; decide
            · simp at h
          | tail _ h ih =>
            rename_i b c _
            refine lt_trans ih ?_
            change b ∈ (if c = 1 then ({0} : Finset Int) else ∅) at h
            split_ifs at h with hb
            · obtain rfl := Finset.mem_singleton.mp h
              subst hb; decide
            · simp at h
        exact lt_irrefl _ (key v v h))
    exNoRet_nodes true true

/-- A test that raises at its second call: the exception is passed on. With one call it is not reached. -/
example :
    (Pc.learnStructureObj ascending (fun (k : Nat) _ _ _ => if k = 1 then (.error .linAlgError, k + 1) else (.ok true, k + 1)) true
      (Pc.init ascending {0, 1, 2}) 0).map (fun _ => ()) = .error .linAlgError ∧
    (Pc.learnStructureObj ascending (fun (k : Nat) _ _ _ => if k = 1 then (.error .linAlgError, k + 1) else (.ok true, k + 1)) true
      (Pc.init ascending {0, 1}) 0).map (fun r => decide (r.1.graph.PAdj 0 1)) = .ok false := by
  constructor <;> decide +kernel

/-- A run that returns: its queries are answered. -/
example : (Pc.learnStructureObj ascending (Pc.flagged fun (k : Nat) _ _ _ => if k = 1 then (.error .linAlgError, k + 1) else (.ok true, k + 1))
    true (Pc.init ascending {0, 1}) (0, false)).map (fun r => r.2) = .ok (1, false) := by
  decide +kernel

end Verif
