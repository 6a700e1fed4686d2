import Verif.Model.Py
import Mathlib.Analysis.SpecialFunctions.Log.Basic
import Mathlib.LinearAlgebra.Matrix.NonsingularInverse
import Mathlib.Analysis.Real.Sqrt

/-!
# Model of the statistics: `causal_discovery_utils/data_utils.py`, `stat_utils.py` and the statistics of `cond_indep_tests.py`

Floating-point numbers are modelled by real numbers. A data set is a list of records (rows); numpy errors are values. Running out
of memory (`data_utils.py:31-33`) is not modelled.
-/

namespace Verif

/-! ### contingency counts -/

/-- One column of the data (`data[:, var]`, `data_utils.py:8`). -/
def column (data : List (List Int)) (v : Nat) : Py (List Int) :=
  data.mapM (fun row => match row[v]? with
    | some a => .ok a
    | none => .error .indexError)

/-- `data_utils.py:4-10` (`get_var_size`): the largest value of each column plus one; numpy raises ValueError for the maximum of
an empty column. -/
def getVarSize (data : List (List Int)) (numVars : Nat) : Py (List Int) :=
  (List.range numVars).mapM (fun v => do
    match ← column data v with
    | [] => .error .valueError
    | a :: as => return as.foldl max a + 1)

/-- `data_utils.py:21-23`: the list `sz_cum_prod`. -/
def szCumProd (varSize : List Int) : List Int :=
  varSize.dropLast.foldl (fun acc s => acc ++ [acc.getLastD 1 * s]) [1]

/-- `np.dot` of a record and the strides (`data_utils.py:27`); shapes must agree. -/
def flatIndex (strides row : List Int) : Py Int :=
  if row.length = strides.length then .ok (List.zipWith (· * ·) row strides).sum else .error .valueError

/-- `np.bincount` (`data_utils.py:30`): the entry at `k` is the number, or the total weight, of the occurrences of `k`. -/
def bincount {W : Type} [AddCommMonoidWithOne W] (idx : List Int) (minlength : Int) (weights : Option (List W)) : Py (List W) :=
  if minlength < 0 ∨ ∃ i ∈ idx, i < 0 then .error .valueError
  else
    let ws := weights.getD (List.replicate idx.length 1)
    if ws.length ≠ idx.length then .error .valueError
    else
      let n := idx.foldl (fun m i => max m (i.toNat + 1)) minlength.toNat
      .ok ((List.range n).map (fun k : Nat => (((idx.zip ws).filter (fun iw => iw.1 = (k : Int))).map Prod.snd).sum))

/-- `data_utils.py:13-34` (`calc_stats`). -/
def calcStats {W : Type} [AddCommMonoidWithOne W] (data : List (List Int)) (varSize : List Int) (weights : Option (List W)) :
    Py (List W) :=
  match varSize.getLast? with
  | none => .error .indexError
  | some lastSize => do
    let strides := szCumProd varSize
    let szProd := strides.getLastD 1 * lastSize
    let dataIdx ← data.mapM (flatIndex strides)
    bincount dataIdx szProd weights

/-! ### conditional mutual information -/

/-- `cond_indep_tests.py:403-421` (`_calc_cmi_from_counts`); `H i j z` are the counts, `N` is `num_records`. -/
noncomputable def cmiFromCounts (H : Nat → Nat → Nat → ℝ) (xsize ysize csize : Nat) (N : ℝ) : ℝ :=
  (List.range csize).foldl (fun cmi z =>
    let cnum := ((List.range xsize).map (fun i => ((List.range ysize).map (fun j => H i j z)).sum)).sum
    (List.range xsize).foldl (fun cmi i =>
      (List.range ysize).foldl (fun cmi j =>
        if H i j z > 0 then
          let cx := ((List.range xsize).map (fun i' => H i' j z)).sum
          let cy := ((List.range ysize).map (fun j' => H i j' z)).sum
          cmi + Real.log (H i j z * cnum / (cx * cy)) * H i j z / N
        else cmi) cmi) cmi) 0

/-- The columns `all_var_idx` of a record (`cond_indep_tests.py:374`). -/
def pick (row : List Int) (idx : List Nat) : Py (List Int) :=
  idx.mapM (fun v => match row[v]? with
    | some a => .ok a
    | none => .error .indexError)

/-- `cond_indep_tests.py:365-401` (`CondIndepCMI.calc_statistic`); the reshape of lines 380-381 is in Fortran order. -/
noncomputable def cmiStatistic (data : List (List Int)) (nodeSize : List Int) (weights : Option (List ℝ)) (x y : Nat)
    (zz : List Nat) : Py ℝ := do
  let idx := x :: y :: zz
  let dd ← data.mapM (fun row => pick row idx)
  let varSize ← pick nodeSize idx
  let hist ← calcStats dd varSize weights
  let xs := varSize.getD 0 0
  let ys := varSize.getD 1 0
  if xs ≤ 0 ∨ ys ≤ 0 ∨ (hist.length : Int) % (xs * ys) ≠ 0 then throw .valueError
  let xs := xs.toNat
  let ys := ys.toNat
  return cmiFromCounts (fun i j z => hist.getD (i + xs * (j + ys * z)) 0) xs ys (hist.length / (xs * ys)) data.length

/-! ### partial correlation -/

/-- Floating-point results that matter here: a number, an infinity (of either sign) or NaN. Rounding is not modelled. -/
inductive Flt
  | fin (a : ℝ)
  | inf
  | nan

/-- `a / numpy.sqrt(b)` (`cond_indep_tests.py:321-324`, `329`): NaN for negative `b` and for `0 / 0`, infinite for division by
zero otherwise (numpy only warns). -/
noncomputable def Flt.divSqrt (a b : ℝ) : Flt :=
  open Classical in
  if b < 0 then .nan
  else if b = 0 then (if a = 0 then .nan else .inf)
  else .fin (a / Real.sqrt b)

/-- The submatrix `corr_coef[np.ix_(l, l)]` (`cond_indep_tests.py:327`). -/
def subMatrix (C : Nat → Nat → ℝ) (l : List Nat) : Matrix (Fin l.length) (Fin l.length) ℝ := fun i j => C (l.get i) (l.get j)

/-- `cond_indep_tests.py:326-329`: the general branch; `np.linalg.inv` raises LinAlgError for a singular matrix. -/
noncomputable def invParCorr (C : Nat → Nat → ℝ) (x y : Nat) (zz : List Nat) : Py Flt :=
  let sub := subMatrix C (x :: y :: zz)
  open Classical in
  if sub.det = 0 then .error .linAlgError
  else
    let inv := -sub⁻¹
    let i0 : Fin (x :: y :: zz).length := ⟨0, by simp⟩
    let i1 : Fin (x :: y :: zz).length := ⟨1, by simp⟩
    .ok (.divSqrt (inv i0 i1) |inv i0 i0 * inv i1 i1|)

/-- `cond_indep_tests.py:309-329`: `par_corr`, or `none` for the early `return 0` of lines 312 and 319. `C` is the correlation
matrix; indices outside the matrix are not modelled. -/
noncomputable def parCorr (C : Nat → Nat → ℝ) (x y : Nat) (zz : List Nat) : Py (Option Flt) :=
  open Classical in
  match zz with
  | [] => if C x y ≥ 1 then .ok none else .ok (some (.fin (C x y)))
  | [z] =>
    if C x z ≥ 1 ∨ C y z ≥ 1 then .ok none
    else .ok (some (.divSqrt (C x y - C x z * C y z) ((1 - C x z ^ 2) * (1 - C y z ^ 2))))
  | zz => (invParCorr C x y zz).map some

/-- `cond_indep_tests.py:331-345`: from `par_corr` to the p-value; `cdf` is `stats.norm.cdf`, `n` is `num_records`, `k` is
`len(zz)`. `⊥` is NaN (which is not greater than any threshold). -/
noncomputable def fisherP (cdf : ℝ → ℝ) (n k : Nat) : Flt → WithBot ℝ
  | .inf => (0 : ℝ)
  | .nan => ⊥
  | .fin r =>
    open Classical in
    if |r| ≥ 1 then (0 : ℝ)
    else
      let dof : ℝ := n - (k + 2)
      let z := 1 / 2 * Real.log (1 + 2 * r / (1 - r))
      if dof - 1 < 0 then ⊥
      else ((2 * (1 - cdf |Real.sqrt (dof - 1) * z|) : ℝ) : WithBot ℝ)

/-- `cond_indep_tests.py:308-345` (`CondIndepParCorr.calc_statistic`). -/
noncomputable def parCorrStatistic (cdf : ℝ → ℝ) (n : Nat) (C : Nat → Nat → ℝ) (x y : Nat) (zz : List Nat) : Py (WithBot ℝ) :=
  (parCorr C x y zz).map (fun r => match r with
    | none => ((0 : ℝ) : WithBot ℝ)
    | some r => fisherP cdf n zz.length r)

/-! ### covariance to correlation -/

/-- `stat_utils.py:4-22` (`cov_to_corr`) of an `n × n` matrix. The square root of a negative number is NaN in numpy and zero here;
both fail the assertion of line 16. -/
noncomputable def covToCorr (n : Nat) (C : Nat → Nat → ℝ) : Py (Nat → Nat → ℝ) :=
  open Classical in
  if ∀ i < n, Real.sqrt (C i i) > 1e-8 then
    .ok (fun i j => C i j * (1 / Real.sqrt (C j j)) * (1 / Real.sqrt (C i i)))
  else .error .assertionError

/-! ### temporal data -/

/-- `np.arange(0, stop, step)` for `step ≥ 0` (`data_utils.py:55`); numpy raises ZeroDivisionError for step zero. -/
def arange (stop : Int) (step : Nat) : Py (List Nat) :=
  if step = 0 then .error .zeroDivision
  else .ok ((List.range ((stop.toNat + step - 1) / step)).map (· * step))

/-- `row[idxes] = src[idxes_rev]` for one row (`data_utils.py:71`). -/
def assignCols {W : Type} [Zero W] (row src : List W) (idxes idxesRev : List Nat) : List W :=
  (idxes.zip idxesRev).foldl (fun r ij => r.set ij.1 (src.getD ij.2 0)) row

/-- `data_utils.py:37-78` (`unroll_temporal_data`): unrolled data, all node index lists, observed node index lists. `numVars` is
`data_full.shape[1]`; negative steps and negative indices are not modelled. -/
def unrollTemporal {W : Type} [Zero W] (data : List (List W)) (numVars : Nat) (observed : List Nat) (windowLen tStep : Nat)
    (reverse : Bool) : Py (List (List W) × List (List Nat) × List (List Nat)) := do
  let numUnrolled := windowLen * numVars
  let starts := (← arange ((data.length : Int) + 1 - windowLen) tStep).map (· * numVars)
  let unrolled := starts.map (fun st => (data.flatten.drop st).take numUnrolled)
  let nodesFull := (List.range windowLen).map (fun i => (List.range numVars).map (fun v => i * numVars + v))
  let nodes ← nodesFull.mapM (fun l => observed.mapM (fun v => match l[v]? with
    | some a => (.ok a : Py Nat)
    | none => .error .indexError))
  if reverse then
    let reversed := unrolled.map (fun row =>
      (nodes.zip nodes.reverse).foldl (fun r ii => assignCols r row ii.1 ii.2) (List.replicate numUnrolled 0))
    return (reversed, nodesFull, nodes)
  else return (unrolled, nodesFull, nodes)

end Verif
