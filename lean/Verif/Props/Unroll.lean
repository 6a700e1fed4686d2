import Verif.Lemmas.Unroll

/-! # Property C46: unrolling of temporal data -/

namespace Verif

section
variable {W : Type} [Zero W]

/-- C46: for every data matrix, window, positive step and list of observed columns, the rows are the windows that start at the
multiples of the step and fit in the data. In temporal order, column `k * m + v` of row `i` is variable `v` of the sample at time
`i * step + k`. In reversed order it is the sample at time `i * step + (window - 1 - k)` for observed variables and zero for the
others. The node index lists name these columns. -/
theorem C46_unroll {data : List (List W)} {m : Nat} (hm : ∀ r ∈ data, r.length = m) {obs : List Nat} (ho : ∀ v ∈ obs, v < m)
    (w : Nat) {step : Nat} (hs : 0 < step) (reverse : Bool) :
    ∃ U full nodes, unrollTemporal data m obs w step reverse = .ok (U, full, nodes) ∧
      (∀ i, i < U.length ↔ i * step + w ≤ data.length) ∧
      (∀ i k v, i < U.length → k < w → v < m →
        (U[i]?.bind (·[k * m + v]?)) =
          if reverse then (if v ∈ obs then data[i * step + (w - 1 - k)]?.bind (·[v]?) else some 0)
          else data[i * step + k]?.bind (·[v]?)) ∧
      (∀ r ∈ U, r.length = w * m) ∧
      full = (List.range w).map (fun k => (List.range m).map (fun v => k * m + v)) ∧
      nodes = (List.range w).map (fun k => obs.map (fun v => k * m + v)) := by
  obtain ⟨n, h1, h2⟩ := arange_spec (stop := (data.length : Int) + 1 - w) hs
  have hn : ∀ i, i < n ↔ i * step + w ≤ data.length := fun i => by rw [h2]; omega
  have h3 := nodes_ok (w := w) ho
  cases reverse with
  | false =>
    refine ⟨(((List.range n).map (· * step)).map (· * m)).map (fun st => (data.flatten.drop st).take (w * m)), _, _, ?_, ?_, ?_, ?_, rfl, rfl⟩
    · rw [unrollTemporal]
      rw [py_bind h1]
      exact (py_bind h3 _).trans rfl
    · intro i; simp only [List.length_map, List.length_range]; exact hn i
    · intro i k v hi hk hv
      simp only [List.length_map, List.length_range] at hi
      simp only [List.getElem?_map, List.getElem?_range hi, Option.map_some, Option.bind_some, Bool.false_eq_true, if_false]
      exact (unrolled_row hm ((hn i).1 hi)).2 k hk v hv
    · intro r hr
      simp only [List.mem_map, List.mem_range] at hr
      obtain ⟨_, ⟨_, ⟨i, hi, rfl⟩, rfl⟩, rfl⟩ := hr
      exact (unrolled_row hm ((hn i).1 hi)).1
  | true =>
    refine ⟨((((List.range n).map (· * step)).map (· * m)).map (fun st => (data.flatten.drop st).take (w * m))).map (fun row =>
      (((List.range w).map (fun k => obs.map (fun v => k * m + v))).zip
        ((List.range w).map (fun k => obs.map (fun v => k * m + v))).reverse).foldl
        (fun r ii => assignCols r row ii.1 ii.2) (List.replicate (w * m) 0)), _, _, ?_, ?_, ?_, ?_, rfl, rfl⟩
    · rw [unrollTemporal]
      rw [py_bind h1]
      exact (py_bind h3 _).trans rfl
    · intro i; simp only [List.length_map, List.length_range]; exact hn i
    · intro i k v hi hk hv
      simp only [List.length_map, List.length_range] at hi
      simp only [List.getElem?_map, List.getElem?_range hi, Option.map_some, Option.bind_some, if_true]
      rw [(reversed_row ho _).2 k hk v hv]
      by_cases hvo : v ∈ obs
      · rw [if_pos hvo, if_pos hvo, List.getD_eq_getElem?_getD, (unrolled_row hm ((hn i).1 hi)).2 _ (by omega) v hv]
        have hlt : i * step + (w - 1 - k) < data.length := by have := (hn i).1 hi; omega
        rw [List.getElem?_eq_getElem hlt, Option.bind_some,
          List.getElem?_eq_getElem (by rw [hm _ (List.getElem_mem hlt)]; exact hv)]
        rfl
      · rw [if_neg hvo, if_neg hvo]
    · intro r hr
      simp only [List.mem_map, List.mem_range] at hr
      obtain ⟨_, ⟨_, ⟨_, ⟨i, hi, rfl⟩, rfl⟩, rfl⟩, rfl⟩ := hr
      exact (reversed_row ho _).1

/-- C46 (errors): a zero step raises, and so does an observed column that does not exist. -/
theorem C46_errors (data : List (List W)) (m : Nat) (obs : List Nat) (w step : Nat) (reverse : Bool) :
    unrollTemporal data m obs w 0 reverse = .error .zeroDivision ∧
    (0 < step → 0 < w → (∃ v ∈ obs, m ≤ v) → unrollTemporal data m obs w step reverse = .error .indexError) := by
  refine ⟨rfl, fun hs hw ho => ?_⟩
  obtain ⟨n, h1, -⟩ := arange_spec (stop := (data.length : Int) + 1 - w) hs
  rw [unrollTemporal, py_bind h1]
  exact py_bind_err (nodes_err (m := m) hw ho) _

end

/-- Three variables, window 2, step 2: temporal order. -/
example : unrollTemporal [[1, 2, 3], [4, 5, 6], [7, 8, 9], [10, 11, 12], [13, 14, 15]] 3 [0, 2] 2 2 false =
    .ok ([[1, 2, 3, 4, 5, 6], [7, 8, 9, 10, 11, 12]], [[0, 1, 2], [3, 4, 5]], [[0, 2], [3, 5]]) := by decide +kernel

/-- The same in reversed order: the unobserved variable 1 is replaced by zero. -/
example : unrollTemporal [[1, 2, 3], [4, 5, 6], [7, 8, 9], [10, 11, 12], [13, 14, 15]] 3 [0, 2] 2 2 true =
    .ok ([[4, 0, 6, 1, 0, 3], [10, 0, 12, 7, 0, 9]], [[0, 1, 2], [3, 4, 5]], [[0, 2], [3, 5]]) := by decide +kernel

end Verif
