import Verif.Spec.Counter
import Verif.Lemmas.CiTest
import Mathlib.Data.Finset.Powerset
import Mathlib.Data.Finset.Sigma
import Mathlib.Algebra.BigOperators.Group.Finset.Sigma
import Mathlib.Data.Fintype.BigOperators

/-!
# Lemmas about the test counters
-/

namespace Verif

theorem sameTest_iff {x y x' y' : Int} {zz zz' : List Int} :
    SameTest x y zz x' y' zz' ↔ CacheCI.hkeys x y zz = CacheCI.hkeys x' y' zz' := CacheCI.hkeys_eq_iff.symm

section
variable {R : Type}

/-- What a query does to the cache and the counter. -/
structure Counts (n : Nat) (V : Int → Int → List Int → Prop) (eff : Int → Int → List Int → Option (List Int))
    (ask : CiState R → Int → Int → List Int → Py Bool × CiState R) : Prop where
  valid : ∀ {x y zz zz'}, V x y zz → eff x y zz = some zz' → ValidQuery n x y zz'
  skip : ∀ {s x y zz}, V x y zz → eff x y zz = none → (ask s x y zz).2 = s
  hit : ∀ {s x y zz zz' r}, V x y zz → eff x y zz = some zz' → s.cache.get x y zz' = some r → (ask s x y zz).2 = s
  miss : ∀ {s x y zz zz'}, V x y zz → eff x y zz = some zz' → s.cache.get x y zz' = none →
    ∃ r, ∀ s1 s2, s.store x y zz' r = .ok s1 → s1.count zz'.length = .ok s2 → (ask s x y zz).2 = s2

/-- The state after the past. -/
structure Counted (n : Nat) (useCache : Bool) (past : List CiOp) (l : List Nat) (s : CiState R) : Prop where
  counter : s.counter = some l
  len : l.length = n - 1
  isCache : s.isCache = useCache
  keys : useCache = true → s.cache.Keys n
  known : useCache = true → ∀ x y zz, CacheCI.InRange n x y → ((s.cache.get x y zz).isSome ↔ KnownTest past x y zz)
  off : useCache = false → s.cache.cache = none

theorem counted_init (n : Nat) (useCache : Bool) :
    Counted n useCache [] (List.replicate (n - 1) 0) (CiState.init (R := R) n true useCache) := by
  refine ⟨by simp [CiState.init], by simp, rfl, ?_, ?_, ?_⟩
  · rintro rfl
    exact CacheCI.init_keys n
  · rintro rfl x y zz -
    have := CacheCI.init_get (R := R) (some n) x y zz
    simp only [CiState.init, if_true]
    rw [this]
    simp [KnownTest]
  · rintro rfl
    rfl

theorem Counted.delete {n : Nat} {useCache : Bool} {past : List CiOp} {l : List Nat} {s : CiState R}
    (h : Counted n useCache past l s) (x y : Int) (zz : List Int) :
    Counted n useCache (.delete x y zz :: past) l { s with cache := (s.cache.del x y zz).2 } := by
  refine ⟨h.counter, h.len, h.isCache, fun hu => (CacheCI.del_spec (h.keys hu) x y zz).2.1, fun hu x' y' zz' hr => ?_, fun hu => ?_⟩
  · simp only
    rw [(CacheCI.del_spec (h.keys hu) x y zz).2.2, KnownTest, sameTest_iff, ← h.known hu x' y' zz' hr]
    split_ifs with he <;> simp [he]
  · simp only [CacheCI.del, h.off hu]

theorem Counted.query {n : Nat} {useCache : Bool} {past : List CiOp} {l : List Nat} {s : CiState R}
    (h : Counted n useCache past l s) {x y : Int} {zz : List Int} (hv : ValidQuery n x y zz) (r : R) :
    ∃ s1 s2, s.store x y zz r = .ok s1 ∧ s1.count zz.length = .ok s2 ∧
      Counted n useCache (.query x y zz :: past) (l.set zz.length (l.getD zz.length 0 + 1)) s2 := by
  have hk : zz.length < l.length := by rw [h.len]; exact hv.length_lt
  have hget : l[zz.length]? = some l[zz.length] := List.getElem?_eq_getElem hk
  have hgd : l.getD zz.length 0 = l[zz.length] := by simp [List.getD, hget]
  cases useCache with
  | true =>
    obtain ⟨c', h1, h2, h3⟩ := (CacheCI.set_spec (h.keys rfl) x y zz r).2 hv.1
    refine ⟨{ s with cache := c' }, { s with cache := c', counter := some (l.set zz.length (l[zz.length] + 1)) }, ?_, ?_, ?_⟩
    · simp only [CiState.store, h.isCache, if_true]
      rw [py_bind h1]
      rfl
    · simp only [CiState.count, h.counter, hget]
    · refine ⟨by rw [hgd], by simp [h.len], h.isCache, fun _ => h2, fun _ x' y' zz' hr => ?_, by simp⟩
      simp only
      rw [h3, KnownTest, sameTest_iff, ← h.known rfl x' y' zz' hr]
      split_ifs with he <;> simp [he]
  | false =>
    refine ⟨s, { s with counter := some (l.set zz.length (l[zz.length] + 1)) }, ?_, ?_, ?_⟩
    · simp [CiState.store, h.isCache]
    · simp only [CiState.count, h.counter, hget]
    · exact ⟨by rw [hgd], by simp [h.len], h.isCache, by simp, by simp, h.off⟩

theorem Counted.again {n : Nat} {useCache : Bool} {past : List CiOp} {l : List Nat} {s : CiState R}
    (h : Counted n useCache past l s) {x y : Int} {zz : List Int} (hv : ValidQuery n x y zz) {r : R}
    (hr : s.cache.get x y zz = some r) : useCache = true ∧ KnownTest past x y zz ∧ Counted n useCache (.query x y zz :: past) l s := by
  have hu : useCache = true := by
    cases useCache with
    | true => rfl
    | false =>
      have := h.off rfl
      simp only [CacheCI.get, this] at hr
      cases hr
  have hkn : KnownTest past x y zz := (h.known hu x y zz hv.1).mp (by simp [hr])
  refine ⟨hu, hkn, h.counter, h.len, h.isCache, h.keys, fun hu x' y' zz' hr' => ?_, h.off⟩
  rw [KnownTest]
  constructor
  · intro h'
    exact Or.inr ((h.known hu x' y' zz' hr').mp h')
  · rintro (h' | h')
    · have e := sameTest_iff.mp h'
      have : s.cache.get x' y' zz' = s.cache.get x y zz := by
        simp only [CacheCI.get, e]
      rw [this, hr]
      rfl
    · exact (h.known hu x' y' zz' hr').mpr h'

/-- The counter after a history. -/
theorem counts_after {n : Nat} {V : Int → Int → List Int → Prop} {eff : Int → Int → List Int → Option (List Int)}
    {ask : CiState R → Int → Int → List Int → Py Bool × CiState R} (ha : Counts n V eff ask) {useCache : Bool} :
    ∀ (ops past : List CiOp) (l : List Nat) (s : CiState R), Counted n useCache past l s →
      (∀ x y zz, CiOp.query x y zz ∈ ops → V x y zz) →
      (after ask s ops).counter =
        some ((List.range (n - 1)).map (fun k => l.getD k 0 + computed useCache k past (effective eff ops))) := by
  intro ops
  induction ops with
  | nil =>
    intro past l s h _
    simp only [after, effective, computed, Nat.add_zero, h.counter, ← h.len]
    congr 1
    refine List.ext_getElem (by simp) fun i h1 h2 => ?_
    simp [List.getD, List.getElem?_eq_getElem h1]
  | cons op ops ih =>
    intro past l s h hops
    have hops' : ∀ x y zz, CiOp.query x y zz ∈ ops → V x y zz := fun x y zz h' => hops x y zz (List.mem_cons_of_mem _ h')
    cases op with
    | delete x y zz =>
      simp only [after, effective, computed]
      exact ih _ _ _ (h.delete x y zz) hops'
    | query x y zz =>
      have hv := hops x y zz (by simp)
      simp only [after]
      cases he : eff x y zz with
      | none =>
        simp only [effective, he]
        rw [ha.skip hv he]
        exact ih _ _ _ h hops'
      | some zz' =>
        have hval := ha.valid hv he
        simp only [effective, he, computed]
        cases hg : s.cache.get x y zz' with
        | some r =>
          obtain ⟨hu, hkn, hc⟩ := h.again hval hg
          rw [ha.hit hv he hg, ih _ _ _ hc hops']
          simp [hu, hkn]
        | none =>
          obtain ⟨r, hr⟩ := ha.miss hv he hg
          obtain ⟨s1, s2, k1, k2, k3⟩ := h.query hval r
          rw [hr s1 s2 k1 k2, ih _ _ _ k3 hops']
          have hkn : useCache = true → ¬ KnownTest past x y zz' := by
            intro hu h'
            have := (h.known hu x y zz' hval.1).mpr h'
            simp [hg] at this
          have hlen : zz'.length < l.length := by rw [h.len]; exact hval.length_lt
          congr 1
          refine List.map_congr_left fun k hk => ?_
          by_cases hkl : zz'.length = k
          · subst hkl
            rw [if_pos ⟨rfl, hkn⟩]
            simp [List.getD, hlen]
            omega
          · rw [if_neg fun h' => hkl h'.1]
            simp [List.getD, hkl]

end

/-! ### how many tests there are -/

/-- Pair and conditioning set of the queries with `k` conditioning variables. -/
def testKeys (k : Nat) : List CiOp → Finset ((_ : Finset Int) × Finset Int)
  | [] => ∅
  | .query x y zz :: ops => if zz.length = k then insert ⟨{x, y}, zz.toFinset⟩ (testKeys k ops) else testKeys k ops
  | .delete _ _ _ :: ops => testKeys k ops

theorem mem_testKeys {k : Nat} {ops : List CiOp} {p : (_ : Finset Int) × Finset Int} :
    p ∈ testKeys k ops ↔ ∃ x y zz, CiOp.query x y zz ∈ ops ∧ zz.length = k ∧ p = ⟨{x, y}, zz.toFinset⟩ := by
  induction ops with
  | nil => simp [testKeys]
  | cons op ops ih =>
    cases op with
    | query x y zz =>
      simp only [testKeys]
      constructor
      · intro h
        split_ifs at h with hk
        · rcases Finset.mem_insert.mp h with rfl | h
          · exact ⟨x, y, zz, by simp, hk, rfl⟩
          · obtain ⟨a, b, c, h1, h2⟩ := ih.mp h
            exact ⟨a, b, c, List.mem_cons_of_mem _ h1, h2⟩
        · obtain ⟨a, b, c, h1, h2⟩ := ih.mp h
          exact ⟨a, b, c, List.mem_cons_of_mem _ h1, h2⟩
      · rintro ⟨a, b, c, h1, h2, h3⟩
        rcases List.mem_cons.mp h1 with h1 | h1
        · cases h1
          rw [if_pos h2, h3]
          exact Finset.mem_insert_self _ _
        · have := ih.mpr ⟨a, b, c, h1, h2, h3⟩
          split_ifs
          · exact Finset.mem_insert_of_mem this
          · exact this
    | delete x y zz =>
      simp only [testKeys, ih]
      constructor
      · rintro ⟨a, b, c, h1, h2⟩
        exact ⟨a, b, c, List.mem_cons_of_mem _ h1, h2⟩
      · rintro ⟨a, b, c, h1, h2⟩
        exact ⟨a, b, c, by simpa using h1, h2⟩

/-- A history without deletions. -/
def NoDeletes (ops : List CiOp) : Prop := ∀ x y zz, CiOp.delete x y zz ∉ ops

theorem known_of_key {n : Nat} {past : List CiOp} (hd : NoDeletes past)
    (hp : ∀ x y zz, CiOp.query x y zz ∈ past → ValidQuery n x y zz) {x y : Int} {zz : List Int} (hv : ValidQuery n x y zz)
    (h : (⟨{x, y}, zz.toFinset⟩ : (_ : Finset Int) × Finset Int) ∈ testKeys zz.length past) : KnownTest past x y zz := by
  induction past with
  | nil => simp [testKeys] at h
  | cons op past ih =>
    have hd' : NoDeletes past := fun x y zz h' => hd x y zz (List.mem_cons_of_mem _ h')
    have hp' : ∀ x y zz, CiOp.query x y zz ∈ past → ValidQuery n x y zz := fun x y zz h' => hp x y zz (List.mem_cons_of_mem _ h')
    cases op with
    | delete a b c => exact absurd (by simp) (hd a b c)
    | query a b c =>
      rw [KnownTest]
      simp only [testKeys] at h
      split_ifs at h with hk
      · rcases Finset.mem_insert.mp h with h | h
        · left
          simp only [Sigma.mk.injEq, heq_eq_eq] at h
          obtain ⟨h1, h2⟩ := h
          have hvc := hp a b c (by simp)
          refine ⟨?_, (List.perm_ext_iff_of_nodup hvc.2.1 hv.2.1).mpr fun z => ?_⟩
          · have hx : x ∈ ({a, b} : Finset Int) := by rw [← h1]; simp
            have hy : y ∈ ({a, b} : Finset Int) := by rw [← h1]; simp
            have hne : x ≠ y := hv.1.2.2.2.2
            simp only [Finset.mem_insert, Finset.mem_singleton] at hx hy
            omega
          · rw [← List.mem_toFinset, ← h2, List.mem_toFinset]
        · exact Or.inr (ih hd' hp' h)
      · exact Or.inr (ih hd' hp' h)

theorem computed_le {n : Nat} (k : Nat) : ∀ (ops past : List CiOp), NoDeletes ops → NoDeletes past →
    (∀ x y zz, CiOp.query x y zz ∈ ops → ValidQuery n x y zz) → (∀ x y zz, CiOp.query x y zz ∈ past → ValidQuery n x y zz) →
    computed true k past ops ≤ (testKeys k ops \ testKeys k past).card := by
  intro ops
  induction ops with
  | nil => intros; simp [computed]
  | cons op ops ih =>
    intro past hd hd' ho hp
    cases op with
    | delete a b c => exact absurd (by simp) (hd a b c)
    | query x y zz =>
      have hdo : NoDeletes ops := fun x y zz h' => hd x y zz (List.mem_cons_of_mem _ h')
      have hdq : NoDeletes (.query x y zz :: past) := fun a b c h' => hd' a b c (by simpa using h')
      have hoo : ∀ x y zz, CiOp.query x y zz ∈ ops → ValidQuery n x y zz := fun x y zz h' => ho x y zz (List.mem_cons_of_mem _ h')
      have hv := ho x y zz (by simp)
      have hpq : ∀ a b c, CiOp.query a b c ∈ CiOp.query x y zz :: past → ValidQuery n a b c := by
        intro a b c h'
        rcases List.mem_cons.mp h' with h' | h'
        · cases h'; exact hv
        · exact hp a b c h'
      have hi := ih (.query x y zz :: past) hdo hdq hoo hpq
      simp only [computed]
      by_cases hk : zz.length = k
      · subst hk
        simp only [testKeys, if_true] at hi ⊢
        by_cases hkey : (⟨{x, y}, zz.toFinset⟩ : (_ : Finset Int) × Finset Int) ∈ testKeys zz.length past
        · have := known_of_key hd' hp hv hkey
          rw [if_neg (by simp [this]), Nat.zero_add]
          refine hi.trans (Finset.card_le_card ?_)
          intro p hp'
          simp only [Finset.mem_sdiff, Finset.mem_insert] at hp' ⊢
          exact ⟨Or.inr hp'.1, fun h' => hp'.2 (Or.inr h')⟩
        · have hle : ∀ (p : Prop) [Decidable p], (if p then 1 else 0) ≤ 1 := by
            intro p _
            split_ifs <;> simp
          have hcard : (insert (⟨{x, y}, zz.toFinset⟩ : (_ : Finset Int) × Finset Int)
              (testKeys zz.length ops \ insert ⟨{x, y}, zz.toFinset⟩ (testKeys zz.length past))).card =
              (testKeys zz.length ops \ insert ⟨{x, y}, zz.toFinset⟩ (testKeys zz.length past)).card + 1 :=
            Finset.card_insert_of_notMem (by simp)
          have hsub : insert (⟨{x, y}, zz.toFinset⟩ : (_ : Finset Int) × Finset Int)
              (testKeys zz.length ops \ insert ⟨{x, y}, zz.toFinset⟩ (testKeys zz.length past)) ⊆
              insert ⟨{x, y}, zz.toFinset⟩ (testKeys zz.length ops) \ testKeys zz.length past := by
            intro p hp'
            simp only [Finset.mem_sdiff, Finset.mem_insert] at hp' ⊢
            rcases hp' with rfl | ⟨h1, h2⟩
            · exact ⟨Or.inl rfl, hkey⟩
            · exact ⟨Or.inr h1, fun h' => h2 (Or.inr h')⟩
          have := Finset.card_le_card hsub
          refine (Nat.add_le_add (hle _) hi).trans ?_
          omega
      · simp only [testKeys, hk, if_false, false_and, Nat.zero_add] at hi ⊢
        exact hi

theorem testKeys_card {n : Nat} (k : Nat) {ops : List CiOp} (ho : ∀ x y zz, CiOp.query x y zz ∈ ops → ValidQuery n x y zz) :
    (testKeys k ops).card ≤ n.choose 2 * (n - 2).choose k := by
  let N : Finset Int := (Finset.range n).map ⟨fun i : Nat => (i : Int), fun a b h => Int.ofNat_inj.mp h⟩
  have hN : N.card = n := by simp [N]
  have hmem : ∀ z : Int, 0 ≤ z → z < n → z ∈ N := by
    intro z h0 h1
    simp only [N, Finset.mem_map, Finset.mem_range]
    exact ⟨z.toNat, by omega, Int.toNat_of_nonneg h0⟩
  have hsub : testKeys k ops ⊆ (Finset.powersetCard 2 N).sigma (fun P => Finset.powersetCard k (N \ P)) := by
    intro p hp
    obtain ⟨x, y, zz, h1, h2, rfl⟩ := mem_testKeys.mp hp
    have hv := ho x y zz h1
    simp only [Finset.mem_sigma, Finset.mem_powersetCard]
    refine ⟨⟨?_, Finset.card_pair hv.1.2.2.2.2⟩, ?_, ?_⟩
    · intro z hz
      simp only [Finset.mem_insert, Finset.mem_singleton] at hz
      rcases hz with rfl | rfl
      · exact hmem _ hv.1.1 hv.1.2.1
      · exact hmem _ hv.1.2.2.1 hv.1.2.2.2.1
    · intro z hz
      have := hv.2.2 z (List.mem_toFinset.mp hz)
      simp only [Finset.mem_sdiff, Finset.mem_insert, Finset.mem_singleton, not_or]
      exact ⟨hmem z this.1 this.2.1, this.2.2⟩
    · rw [List.toFinset_card_of_nodup hv.2.1, h2]
  refine (Finset.card_le_card hsub).trans ?_
  rw [Finset.card_sigma]
  have : ∀ P ∈ Finset.powersetCard 2 N, (Finset.powersetCard k (N \ P)).card = (n - 2).choose k := by
    intro P hP
    rw [Finset.mem_powersetCard] at hP
    rw [Finset.card_powersetCard, Finset.card_sdiff_of_subset hP.1, hN, hP.2]
  rw [Finset.sum_congr rfl this, Finset.sum_const, Finset.card_powersetCard, hN, Nat.nsmul_eq_mul]

end Verif
