import Verif.Model.CiTest
import Verif.Lemmas.SepSet
import Verif.Lemmas.Py
import Mathlib.Data.List.Perm.Basic

/-!
# Lemmas about the cache of CI tests
-/

namespace Verif

theorem Dict.get?_del {κ ν : Type} [DecidableEq κ] (d : Dict κ ν) (k k' : κ) :
    (d.del k).get? k' = if k = k' then none else d.get? k' := by
  induction d with
  | nil => simp [del, get?]
  | cons kv d ih =>
    obtain ⟨k0, v0⟩ := kv
    unfold del at ih ⊢
    by_cases h0 : k0 = k
    · subst h0
      simp only [ne_eq, List.filter_cons, not_true_eq_false, decide_false, Bool.false_eq_true, if_false]
      rw [ih]
      by_cases h : k0 = k'
      · simp [h]
      · simp [h, get?]
    · simp only [ne_eq, List.filter_cons, h0, not_false_eq_true, decide_true, if_true, get?]
      rw [ih]
      by_cases h : k0 = k'
      · subst h; simp [Ne.symm h0]
      · simp [h]

namespace CacheCI
variable {R : Type}

/-- The pairs of distinct numbers below `n`. -/
def InRange (n : Nat) (x y : Int) : Prop := 0 ≤ x ∧ x < n ∧ 0 ≤ y ∧ y < n ∧ x ≠ y

theorem InRange.symm {n : Nat} {x y : Int} (h : InRange n x y) : InRange n y x :=
  ⟨h.2.2.1, h.2.2.2.1, h.1, h.2.1, fun e => h.2.2.2.2 e.symm⟩

theorem hkeys_eq_iff {x y x' y' : Int} {zz zz' : List Int} : hkeys x y zz = hkeys x' y' zz' ↔
    ((x = x' ∧ y = y') ∨ (x = y' ∧ y = x')) ∧ zz.Perm zz' := by
  unfold hkeys
  rw [Prod.mk.injEq]
  refine and_congr ?_ ?_
  · split_ifs <;> rw [Prod.mk.injEq] <;> omega
  · constructor
    · intro h
      exact ((List.perm_insertionSort (· ≤ ·) zz).symm.trans (by rw [h])).trans (List.perm_insertionSort (· ≤ ·) zz')
    · intro h
      exact List.Perm.eq_of_pairwise (le := (· ≤ ·)) (fun a b _ _ h1 h2 => Int.le_antisymm h1 h2)
        (List.pairwise_insertionSort _ _) (List.pairwise_insertionSort _ _)
        (((List.perm_insertionSort (· ≤ ·) zz).trans h).trans (List.perm_insertionSort (· ≤ ·) zz').symm)

theorem mem_initPairs {n i j : Nat} : (i, j) ∈ initPairs n ↔ i < j ∧ j < n := by
  simp only [initPairs, List.mem_flatMap, List.mem_range, List.mem_map, List.mem_range', Prod.mk.injEq]
  constructor
  · rintro ⟨a, ha, b, ⟨k, hk, rfl⟩, rfl, rfl⟩
    omega
  · rintro ⟨h1, h2⟩
    exact ⟨i, by omega, j, ⟨j - (i + 1), by omega, by omega⟩, rfl, rfl⟩

/-- The cache has exactly the pairs of distinct numbers below `n` as keys. -/
def Keys (n : Nat) (c : CacheCI R) : Prop := ∃ D, c.cache = some D ∧
  ∀ x y zz, (Dict.get? D (hkeys x y zz).1).isSome ↔ InRange n x y

theorem init_get? (l : List (Nat × Nat)) : ∀ (d : Dict (Int × Int) (Dict (List Int) R)) k,
    (l.foldl (fun d ij => Dict.set d (hkeys ij.1 ij.2 []).1 []) d).get? k =
      if ∃ ij ∈ l, (hkeys (ij.1 : Int) (ij.2 : Int) []).1 = k then some [] else d.get? k := by
  induction l with
  | nil => intro d k; simp
  | cons a l ih =>
    intro d k
    rw [List.foldl_cons, ih, Dict.get?_set]
    by_cases h1 : ∃ ij ∈ l, (hkeys (ij.1 : Int) (ij.2 : Int) []).1 = k
    · rw [if_pos h1, if_pos (by obtain ⟨ij, h, h'⟩ := h1; exact ⟨ij, List.mem_cons_of_mem _ h, h'⟩)]
    · rw [if_neg h1]
      by_cases h2 : (hkeys (a.1 : Int) (a.2 : Int) []).1 = k
      · rw [if_pos h2, if_pos ⟨a, by simp, h2⟩]
      · rw [if_neg h2, if_neg]
        rintro ⟨ij, h, h'⟩
        rcases List.mem_cons.1 h with rfl | h
        · exact h2 h'
        · exact h1 ⟨ij, h, h'⟩

theorem init_key (n : Nat) (x y : Int) (zz : List Int) :
    (∃ ij ∈ initPairs n, (hkeys (ij.1 : Int) (ij.2 : Int) []).1 = (hkeys x y zz).1) ↔ InRange n x y := by
  constructor
  · rintro ⟨⟨i, j⟩, h, hk⟩
    have := mem_initPairs.1 h
    simp only [hkeys] at hk
    simp only [InRange]
    split_ifs at hk <;> rw [Prod.mk.injEq] at hk <;> omega
  · rintro ⟨h1, h2, h3, h4, h5⟩
    have h : x < y ∨ y < x := by omega
    rcases h with h | h
    · refine ⟨(x.toNat, y.toNat), mem_initPairs.2 ⟨by omega, by omega⟩, ?_⟩
      simp only [hkeys]
      rw [if_pos h, if_pos (by omega), Prod.mk.injEq]
      omega
    · refine ⟨(y.toNat, x.toNat), mem_initPairs.2 ⟨by omega, by omega⟩, ?_⟩
      simp only [hkeys]
      split_ifs <;> rw [Prod.mk.injEq] <;> omega

theorem init_keys (n : Nat) : Keys n (init (R := R) (some n)) := by
  refine ⟨_, rfl, fun x y zz => ?_⟩
  rw [init_get?, ← init_key n x y zz]
  split_ifs with h
  · simp [h]
  · simp [h, Dict.get?]

theorem init_get (n : Option Nat) (x y : Int) (zz : List Int) : (init (R := R) n).get x y zz = none := by
  cases n with
  | none => rfl
  | some n =>
    simp only [get, init]
    rw [init_get?]
    split_ifs <;> rfl

/-- Storing a result: fails exactly outside the range; afterwards the stored result is found for the same query, up to the
order of the arguments, and nothing else changes. -/
theorem set_spec {n : Nat} {c : CacheCI R} (hc : Keys n c) (x y : Int) (zz : List Int) (r : R) :
    (¬ InRange n x y → c.set x y zz r = .error .keyError) ∧
    (InRange n x y → ∃ c', c.set x y zz r = .ok c' ∧ Keys n c' ∧ ∀ x' y' zz', c'.get x' y' zz' =
      if hkeys x y zz = hkeys x' y' zz' then some r else c.get x' y' zz') := by
  obtain ⟨D, hD, hk⟩ := hc
  constructor
  · intro h
    have : Dict.get? D (hkeys x y zz).1 = none := by
      rw [← Option.not_isSome_iff_eq_none, hk]; exact h
    simp only [set, hD, Dict.get, this]
    rfl
  · intro h
    obtain ⟨d, hd⟩ := Option.isSome_iff_exists.1 ((hk x y zz).2 h)
    refine ⟨⟨some (Dict.set D (hkeys x y zz).1 (Dict.set d (hkeys x y zz).2 r))⟩, ?_, ⟨_, rfl, fun x' y' zz' => ?_⟩, ?_⟩
    · simp only [set, hD, Dict.get, hd]
      rfl
    · rw [Dict.get?_set]
      split_ifs with he
      · rw [← hk x' y' zz', ← he, hd]; simp
      · exact hk x' y' zz'
    · intro x' y' zz'
      simp only [get, hD, Dict.get?_set]
      by_cases he : (hkeys x y zz).1 = (hkeys x' y' zz').1
      · rw [if_pos he]
        simp only [Dict.get?_set]
        by_cases he2 : (hkeys x y zz).2 = (hkeys x' y' zz').2
        · rw [if_pos he2, if_pos (Prod.ext he he2)]
        · rw [if_neg he2, if_neg (fun h => he2 (congrArg Prod.snd h)), ← he, hd]
      · rw [if_neg he, if_neg (fun h => he (congrArg Prod.fst h))]

/-- Deleting a result: afterwards it is not found, and nothing else changes. -/
theorem del_spec {n : Nat} {c : CacheCI R} (hc : Keys n c) (x y : Int) (zz : List Int) :
    (c.del x y zz).1 = c.get x y zz ∧ Keys n (c.del x y zz).2 ∧ ∀ x' y' zz', (c.del x y zz).2.get x' y' zz' =
      if hkeys x y zz = hkeys x' y' zz' then none else c.get x' y' zz' := by
  obtain ⟨D, hD, hk⟩ := id hc
  cases hd : Dict.get? D (hkeys x y zz).1 with
  | none =>
    have e1 : c.del x y zz = (none, c) := by simp only [del, hD, hd]
    have e2 : c.get x y zz = none := by simp only [get, hD, hd]
    rw [e1]
    refine ⟨e2.symm, hc, fun x' y' zz' => ?_⟩
    split_ifs with h
    · simp only [get, hD, ← h, hd]
    · rfl
  | some d =>
    cases hr : Dict.get? d (hkeys x y zz).2 with
    | none =>
      have e1 : c.del x y zz = (none, c) := by simp only [del, hD, hd, hr]
      have e2 : c.get x y zz = none := by simp only [get, hD, hd, hr]
      rw [e1]
      refine ⟨e2.symm, hc, fun x' y' zz' => ?_⟩
      split_ifs with h
      · simp only [get, hD, ← h, hd, hr]
      · rfl
    | some r =>
      have e1 : c.del x y zz = (some r, ⟨some (Dict.set D (hkeys x y zz).1 (Dict.del d (hkeys x y zz).2))⟩) := by
        simp only [del, hD, hd, hr]
      have e2 : c.get x y zz = some r := by simp only [get, hD, hd, hr]
      rw [e1]
      refine ⟨e2.symm, ⟨_, rfl, fun x' y' zz' => ?_⟩, fun x' y' zz' => ?_⟩
      · rw [Dict.get?_set]
        split_ifs with he
        · rw [← hk x' y' zz', ← he, hd]; simp
        · exact hk x' y' zz'
      · simp only [get, hD, Dict.get?_set]
        by_cases he : (hkeys x y zz).1 = (hkeys x' y' zz').1
        · rw [if_pos he]
          simp only [Dict.get?_del]
          by_cases he2 : (hkeys x y zz).2 = (hkeys x' y' zz').2
          · rw [if_pos he2, if_pos (Prod.ext he he2)]
          · rw [if_neg he2, if_neg (fun h => he2 (congrArg Prod.snd h)), ← he, hd]
        · rw [if_neg he, if_neg (fun h => he (congrArg Prod.fst h))]

end CacheCI

/-- A query on nodes `0..n-1`: distinct end points, a duplicate-free conditioning tuple without them. -/
def ValidQuery (n : Nat) (x y : Int) (zz : List Int) : Prop :=
  CacheCI.InRange n x y ∧ zz.Nodup ∧ ∀ z ∈ zz, 0 ≤ z ∧ z < n ∧ z ≠ x ∧ z ≠ y

theorem ValidQuery.symm {n : Nat} {x y : Int} {zz : List Int} (h : ValidQuery n x y zz) : ValidQuery n y x zz :=
  ⟨h.1.symm, h.2.1, fun z hz => ⟨(h.2.2 z hz).1, (h.2.2 z hz).2.1, (h.2.2 z hz).2.2.2, (h.2.2 z hz).2.2.1⟩⟩

theorem ValidQuery.perm {n : Nat} {x y : Int} {zz zz' : List Int} (h : ValidQuery n x y zz) (hp : zz.Perm zz') :
    ValidQuery n x y zz' :=
  ⟨h.1, hp.nodup_iff.1 h.2.1, fun z hz => h.2.2 z (hp.mem_iff.2 hz)⟩

theorem ValidQuery.length_lt {n : Nat} {x y : Int} {zz : List Int} (h : ValidQuery n x y zz) : zz.length < n - 1 := by
  have hnd : (x :: y :: zz).Nodup := by
    simp only [List.nodup_cons, List.mem_cons, not_or]
    exact ⟨⟨h.1.2.2.2.2, fun hx => (h.2.2 x hx).2.2.1 rfl⟩, fun hy => (h.2.2 y hy).2.2.2 rfl, h.2.1⟩
  have hsub : ∀ z ∈ x :: y :: zz, 0 ≤ z ∧ z < n := by
    intro z hz
    rcases List.mem_cons.1 hz with rfl | hz
    · exact ⟨h.1.1, h.1.2.1⟩
    · rcases List.mem_cons.1 hz with rfl | hz
      · exact ⟨h.1.2.2.1, h.1.2.2.2.1⟩
      · exact ⟨(h.2.2 z hz).1, (h.2.2 z hz).2.1⟩
  have hnd' : ((x :: y :: zz).map Int.toNat).Nodup := by
    rw [List.nodup_map_iff_inj_on hnd]
    intro a ha b hb hab
    have := hsub a ha
    have := hsub b hb
    omega
  have hle : ((x :: y :: zz).map Int.toNat) ⊆ List.range n := by
    intro k hk
    obtain ⟨z, hz, rfl⟩ := List.mem_map.1 hk
    have := hsub z hz
    rw [List.mem_range]
    omega
  have := (List.subperm_of_subset hnd' hle).length_le
  simp only [List.map_cons, List.length_cons, List.length_map, List.length_range] at this
  omega

section
variable {R : Type}

/-- A test function on nodes `0..n-1` does not depend on the order of its arguments. -/
def SymTest {β : Type} (n : Nat) (f : Int → Int → List Int → β) : Prop :=
  ∀ x y zz, ValidQuery n x y zz → f x y zz = f y x zz ∧ ∀ zz', zz.Perm zz' → f x y zz = f x y zz'

theorem SymTest.eq {β : Type} {n : Nat} {f : Int → Int → List Int → β} (hf : SymTest n f) {x y x' y' : Int} {zz zz' : List Int}
    (hv : ValidQuery n x y zz) (h : CacheCI.hkeys x y zz = CacheCI.hkeys x' y' zz') : f x y zz = f x' y' zz' := by
  obtain ⟨h1 | h1, h2⟩ := CacheCI.hkeys_eq_iff.1 h
  · obtain ⟨rfl, rfl⟩ := h1
    exact (hf x y zz hv).2 zz' h2
  · obtain ⟨rfl, rfl⟩ := h1
    rw [(hf x y zz hv).1]
    exact (hf y x zz hv.symm).2 zz' h2

/-- Invariant of a test object with cache: the right keys, right results, counters long enough. -/
structure Sane (n : Nat) (f : Int → Int → List Int → Py R) (s : CiState R) : Prop where
  isCache : s.isCache = true
  keys : s.cache.Keys n
  right : ∀ x y zz r, ValidQuery n x y zz → s.cache.get x y zz = some r → f x y zz = .ok r
  counter : ∀ l, s.counter = some l → l.length = n - 1

/-- Invariant of a test object without cache. -/
structure Plain (n : Nat) (s : CiState R) : Prop where
  isCache : s.isCache = false
  cache : s.cache.cache = none
  counter : ∀ l, s.counter = some l → l.length = n - 1

theorem sane_init (n : Nat) (f : Int → Int → List Int → Py R) (b : Bool) : Sane n f (CiState.init n b true) := by
  refine ⟨rfl, CacheCI.init_keys n, fun x y zz r _ h => ?_, fun l h => ?_⟩
  · have := CacheCI.init_get (R := R) (some n) x y zz
    simp only [CiState.init, if_true] at h
    rw [this] at h; cases h
  · simp only [CiState.init] at h
    split_ifs at h
    cases h; simp

theorem plain_init (n : Nat) (b : Bool) : Plain n (CiState.init (R := R) n b false) := by
  refine ⟨rfl, rfl, fun l h => ?_⟩
  simp only [CiState.init] at h
  split_ifs at h
  cases h; simp

theorem count_ok {n : Nat} {s : CiState R} (h : ∀ l, s.counter = some l → l.length = n - 1) {k : Nat} (hk : k < n - 1) :
    ∃ s', s.count k = .ok s' ∧ s'.cache = s.cache ∧ s'.isCache = s.isCache ∧ ∀ l, s'.counter = some l → l.length = n - 1 := by
  unfold CiState.count
  cases hc : s.counter with
  | none => exact ⟨s, rfl, rfl, rfl, h⟩
  | some l =>
    have hl := h l hc
    have : l[k]? = some l[k] := List.getElem?_eq_getElem (by omega)
    refine ⟨{ s with counter := some (l.set k (l[k] + 1)) }, by simp only [this], rfl, rfl, ?_⟩
    intro l' hl'
    cases hl'
    simp [hl]

theorem store_ok {n : Nat} {f : Int → Int → List Int → Py R} (hf : SymTest n f) {s : CiState R} (hs : Sane n f s) {x y : Int}
    {zz : List Int} (hv : ValidQuery n x y zz) {r : R} (hr : f x y zz = .ok r) :
    ∃ s', s.store x y zz r = .ok s' ∧ Sane n f s' ∧ s'.counter = s.counter := by
  obtain ⟨c', h1, h2, h3⟩ := (CacheCI.set_spec hs.keys x y zz r).2 hv.1
  refine ⟨{ s with cache := c' }, ?_, ⟨hs.isCache, h2, fun x' y' zz' r' hv' h => ?_, hs.counter⟩, rfl⟩
  · simp only [CiState.store, hs.isCache, if_true]
    rw [py_bind h1]
    rfl
  · simp only [h3] at h
    split_ifs at h with he
    · cases h
      rw [← hf.eq hv he, hr]
    · exact hs.right _ _ _ _ hv' h

/-- One query to a test object with cache. -/
theorem crit_sane {n : Nat} {f : Int → Int → List Int → Py Bool} (hf : SymTest n f) {s : CiState Bool} (hs : Sane n f s)
    {x y : Int} {zz : List Int} (hv : ValidQuery n x y zz) :
    (critCondIndep f s x y zz).1 = f x y zz ∧ Sane n f (critCondIndep f s x y zz).2 := by
  unfold critCondIndep
  cases hg : s.cache.get x y zz with
  | some r => exact ⟨(hs.right _ _ _ _ hv hg).symm, hs⟩
  | none =>
    cases hr : f x y zz with
    | error e => exact ⟨rfl, hs⟩
    | ok r =>
      obtain ⟨s1, a1, a2, _⟩ := store_ok hf hs hv hr
      obtain ⟨s2, b1, b2, b3, b4⟩ := count_ok (n := n) a2.counter hv.length_lt
      simp only [a1, b1]
      exact ⟨trivial, by rw [b3]; exact a2.isCache, by rw [b2]; exact a2.keys, by rw [b2]; exact a2.right, b4⟩

/-- One query to a test object without cache. -/
theorem crit_plain {n : Nat} {f : Int → Int → List Int → Py Bool} {s : CiState Bool} (hs : Plain n s) {x y : Int}
    {zz : List Int} (hv : ValidQuery n x y zz) :
    (critCondIndep f s x y zz).1 = f x y zz ∧ Plain n (critCondIndep f s x y zz).2 := by
  unfold critCondIndep
  have hg : s.cache.get x y zz = none := by simp only [CacheCI.get, hs.cache]
  rw [hg]
  cases hr : f x y zz with
  | error e => exact ⟨rfl, hs⟩
  | ok r =>
    obtain ⟨s2, b1, b2, b3, b4⟩ := count_ok (n := n) hs.counter hv.length_lt
    simp only [CiState.store, hs.isCache, Bool.false_eq_true, if_false, b1]
    exact ⟨trivial, by rw [b3]; exact hs.isCache, by rw [b2]; exact hs.cache, b4⟩

theorem del_sane {n : Nat} {f : Int → Int → List Int → Py R} {s : CiState R} (hs : Sane n f s) (x y : Int) (zz : List Int) :
    Sane n f { s with cache := (s.cache.del x y zz).2 } := by
  obtain ⟨_, h2, h3⟩ := CacheCI.del_spec hs.keys x y zz
  refine ⟨hs.isCache, h2, fun x' y' zz' r hv h => ?_, hs.counter⟩
  simp only [h3] at h
  split_ifs at h
  exact hs.right _ _ _ _ hv h

theorem del_plain {n : Nat} {s : CiState R} (hs : Plain n s) (x y : Int) (zz : List Int) :
    Plain n { s with cache := (s.cache.del x y zz).2 } := by
  refine ⟨hs.isCache, ?_, hs.counter⟩
  simp only [CacheCI.del, hs.cache]

section
variable [LinearOrder R]

/-- What a statistical test should answer. -/
def statAnswer (retained : UGraph Int) (stat : Int → Int → List Int → Py R) (threshold : R) (x y : Int) (zz : List Int) :
    Py Bool :=
  match retained.isConnected x y with
  | .error e => .error e
  | .ok true => .ok false
  | .ok false => (stat x y zz).map (fun v => decide (v > threshold))

theorem stat_sane {n : Nat} {f : Int → Int → List Int → Py R} (hf : SymTest n f) (U : UGraph Int) (t : R) {s : CiState R}
    (hs : Sane n f s) {x y : Int} {zz : List Int} (hv : ValidQuery n x y zz) :
    (statCondIndep U f t s x y zz).1 = statAnswer U f t x y zz ∧ Sane n f (statCondIndep U f t s x y zz).2 := by
  unfold statCondIndep statAnswer
  cases hU : U.isConnected x y with
  | error e => exact ⟨rfl, hs⟩
  | ok b =>
    cases b with
    | true => exact ⟨rfl, hs⟩
    | false =>
      simp only
      cases hg : s.cache.get x y zz with
      | some r => rw [hs.right _ _ _ _ hv hg]; exact ⟨rfl, hs⟩
      | none =>
        cases hr : f x y zz with
        | error e => exact ⟨rfl, hs⟩
        | ok r =>
          obtain ⟨s2, b1, b2, b3, b4⟩ := count_ok (n := n) hs.counter hv.length_lt
          have hs2 : Sane n f s2 := ⟨by rw [b3]; exact hs.isCache, by rw [b2]; exact hs.keys, by rw [b2]; exact hs.right, b4⟩
          obtain ⟨s1, a1, a2, _⟩ := store_ok hf hs2 hv hr
          simp only [b1, a1]
          exact ⟨rfl, a2⟩

theorem stat_plain {n : Nat} {f : Int → Int → List Int → Py R} (U : UGraph Int) (t : R) {s : CiState R}
    (hs : Plain n s) {x y : Int} {zz : List Int} (hv : ValidQuery n x y zz) :
    (statCondIndep U f t s x y zz).1 = statAnswer U f t x y zz ∧ Plain n (statCondIndep U f t s x y zz).2 := by
  unfold statCondIndep statAnswer
  cases hU : U.isConnected x y with
  | error e => exact ⟨rfl, hs⟩
  | ok b =>
    cases b with
    | true => exact ⟨rfl, hs⟩
    | false =>
      have hg : s.cache.get x y zz = none := by simp only [CacheCI.get, hs.cache]
      simp only [hg]
      cases hr : f x y zz with
      | error e => exact ⟨rfl, hs⟩
      | ok r =>
        obtain ⟨s2, b1, b2, b3, b4⟩ := count_ok (n := n) hs.counter hv.length_lt
        simp only [b1, CiState.store, b3, hs.isCache, Bool.false_eq_true, if_false]
        exact ⟨rfl, by rw [b3]; exact hs.isCache, by rw [b2]; exact hs.cache, b4⟩

end
end

end Verif
