import Verif.Model.Stats
import Verif.Spec.Stats
import Verif.Lemmas.Py
import Mathlib.Tactic.Ring
import Mathlib.Tactic.Linarith
import Mathlib.Tactic.LinearCombination

/-! # Lemmas about contingency counts -/

namespace Verif

theorem mapM_ok {α β : Type} {f : α → Py β} {g : α → β} : ∀ (l : List α), (∀ a ∈ l, f a = .ok (g a)) → l.mapM f = .ok (l.map g)
  | [], _ => rfl
  | a :: l, h => by
    rw [List.mapM_cons, h a (by simp), mapM_ok l (fun b hb => h b (by simp [hb]))]
    rfl

/-- Strides starting with `c`. -/
def cumFrom (c : Int) : List Int → List Int
  | [] => []
  | s :: ss => c :: cumFrom (c * s) ss

theorem cumFrom_length (c : Int) : ∀ l : List Int, (cumFrom c l).length = l.length
  | [] => rfl
  | s :: ss => by simp [cumFrom, cumFrom_length (c * s) ss]

theorem foldl_cum (init : List Int) (c : Int) : ∀ (l : List Int) (s : Int),
    (l ++ [s]).dropLast.foldl (fun acc s => acc ++ [acc.getLastD 1 * s]) (init ++ [c]) = init ++ cumFrom c (l ++ [s])
  | [], s => by simp [cumFrom]
  | a :: l, s => by
    rw [List.cons_append, List.dropLast_cons_of_ne_nil (by simp), List.foldl_cons, cumFrom]
    have := foldl_cum (init ++ [c]) (c * a) l s
    simpa using this

theorem szCumProd_eq {l : List Int} (h : l ≠ []) : szCumProd l = cumFrom 1 l := by
  obtain ⟨l', s, rfl⟩ : ∃ l' s, l = l' ++ [s] := ⟨l.dropLast, l.getLast h, (List.dropLast_append_getLast h).symm⟩
  have := foldl_cum [] 1 l' s
  simpa [szCumProd] using this

theorem cumFrom_last (c : Int) : ∀ (l : List Int) (s : Int), (cumFrom c (l ++ [s])).getLastD 1 * s = c * (l ++ [s]).prod
  | [], s => by simp [cumFrom]
  | a :: l, s => by
    have h := cumFrom_last (c * a) l s
    have hne : cumFrom (c * a) (l ++ [s]) ≠ [] := by
      intro h0; have := cumFrom_length (c * a) (l ++ [s]); rw [h0] at this; simp at this
    obtain ⟨b, t, hbt⟩ := List.exists_cons_of_ne_nil hne
    rw [hbt] at h
    rw [List.cons_append, cumFrom, hbt, List.prod_cons]
    have e : (c :: b :: t).getLastD 1 = (b :: t).getLastD 1 := by simp
    rw [e, h]; ring

theorem zip_cum (c : Int) : ∀ (r l : List Int), r.length = l.length →
    (List.zipWith (· * ·) r (cumFrom c l)).sum = c * radix r l
  | [], [], _ => by simp [radix]
  | v :: r, s :: l, h => by
    rw [cumFrom, List.zipWith_cons_cons, List.sum_cons, zip_cum (c * s) r l (by simpa using h), radix]; ring

theorem InSizes.length : ∀ {r l : List Int}, InSizes r l → r.length = l.length
  | [], [], _ => rfl
  | _ :: _, _ :: _, h => by simp [InSizes.length h.2]

theorem InSizes.radix_lt : ∀ {r l : List Int}, InSizes r l → 0 ≤ radix r l ∧ radix r l < l.prod
  | [], [], _ => by simp [radix]
  | v :: r, s :: l, h => by
    obtain ⟨h1, h2⟩ := InSizes.radix_lt h.2
    obtain ⟨⟨h3, h4⟩, _⟩ := h
    rw [radix, List.prod_cons]
    constructor
    · have := mul_nonneg (by omega : 0 ≤ s) h1; omega
    · nlinarith

theorem InSizes.radix_inj : ∀ {r r' l : List Int}, InSizes r l → InSizes r' l → radix r l = radix r' l → r = r'
  | [], [], [], _, _, _ => rfl
  | [], [], _ :: _, h, _, _ => h.elim
  | [], _ :: _, [], _, h, _ => h.elim
  | [], _ :: _, _ :: _, h, _, _ => h.elim
  | _ :: _, [], [], h, _, _ => h.elim
  | _ :: _, [], _ :: _, _, h, _ => h.elim
  | _ :: _, _ :: _, [], h, _, _ => h.elim
  | v :: r, v' :: r', s :: l, h, h', he => by
    rw [radix, radix] at he
    obtain ⟨⟨a1, a2⟩, a3⟩ := h
    obtain ⟨⟨b1, b2⟩, b3⟩ := h'
    have hv : v = v' := by
      have := congrArg (· % s) he
      simpa [Int.emod_eq_of_lt a1 a2, Int.emod_eq_of_lt b1 b2] using this
    subst hv
    have hs : s ≠ 0 := by omega
    have : radix r l = radix r' l := by
      have : s * radix r l = s * radix r' l := by omega
      exact mul_left_cancel₀ hs this
    rw [a3.radix_inj b3 this]

theorem radix_surj : ∀ (l : List Int) (k : Int), (∀ s ∈ l, 0 < s) → 0 ≤ k → k < l.prod → ∃ r, InSizes r l ∧ radix r l = k
  | [], k, _, h0, h1 => ⟨[], trivial, by simp at h1; simp [radix]; omega⟩
  | s :: l, k, hl, h0, h1 => by
    have hs : 0 < s := hl s (by simp)
    rw [List.prod_cons] at h1
    obtain ⟨r, h2, h3⟩ := radix_surj l (k / s) (fun t ht => hl t (by simp [ht])) (Int.ediv_nonneg h0 hs.le)
      (Int.ediv_lt_of_lt_mul hs (by linarith))
    refine ⟨k % s :: r, ⟨⟨Int.emod_nonneg _ hs.ne', Int.emod_lt_of_pos _ hs⟩, h2⟩, ?_⟩
    rw [radix, h3]; exact Int.emod_add_mul_ediv k s

theorem flatIndex_eq {r l : List Int} (hl : l ≠ []) (h : InSizes r l) : flatIndex (szCumProd l) r = .ok (radix r l) := by
  rw [flatIndex, szCumProd_eq hl, cumFrom_length, if_pos h.length, zip_cum _ _ _ h.length, one_mul]

theorem foldl_max_eq : ∀ (idx : List Int) (n : Nat), (∀ i ∈ idx, i < n) → (∀ i ∈ idx, 0 ≤ i) →
    idx.foldl (fun m i => max m (i.toNat + 1)) n = n
  | [], _, _, _ => rfl
  | i :: idx, n, h, h0 => by
    rw [List.foldl_cons]
    have h1 := h i (by simp)
    have h2 := h0 i (by simp)
    rw [show max n (i.toNat + 1) = n by omega]
    exact foldl_max_eq idx n (fun j hj => h j (by simp [hj])) (fun j hj => h0 j (by simp [hj]))

theorem getLast_prod {l : List Int} (h : l ≠ []) :
    ∃ s, l.getLast? = some s ∧ (szCumProd l).getLastD 1 * s = l.prod := by
  obtain ⟨l', s, rfl⟩ : ∃ l' s, l = l' ++ [s] := ⟨l.dropLast, l.getLast h, (List.dropLast_append_getLast h).symm⟩
  exact ⟨s, by simp, by rw [szCumProd_eq h, cumFrom_last, one_mul]⟩

theorem InSizes.pos : ∀ {r l : List Int}, InSizes r l → ∀ s ∈ l, 0 < s
  | [], [], _, _, h => by simp at h
  | v :: r, s :: l, h, t, ht => by
    obtain ⟨⟨a1, a2⟩, a3⟩ := h
    rcases List.mem_cons.1 ht with rfl | ht
    · omega
    · exact a3.pos t ht

theorem filter_zip_map {W : Type} (l : List Int) (data : List (List Int)) (ws : List W) {r : List Int}
    (hr : InSizes r l) (hd : ∀ a ∈ data, InSizes a l) :
    ((data.map (fun a => radix a l)).zip ws).filter (fun iw => iw.1 = radix r l) =
      ((data.zip ws).filter (fun aw => aw.1 = r)).map (fun aw => (radix aw.1 l, aw.2)) := by
  induction data generalizing ws with
  | nil => simp
  | cons a data ih =>
    cases ws with
    | nil => simp
    | cons w ws =>
      have ha : (radix a l = radix r l) ↔ a = r := ⟨(hd a (by simp)).radix_inj hr, fun h => by rw [h]⟩
      have ih := ih ws (fun b hb => hd b (by simp [hb]))
      simp only [List.map_cons, List.zip_cons_cons, List.filter_cons, ha, decide_eq_true_eq]
      split_ifs <;> simp [ih]

/-- The counts, for weights given by a list. -/
theorem calcStats_run {W : Type} [AddCommMonoidWithOne W] {data : List (List Int)} {l : List Int} (hl : l ≠ [])
    (hp : ∀ s ∈ l, 0 < s) (hd : ∀ a ∈ data, InSizes a l) (weights : Option (List W))
    (hw : ∀ ws, weights = some ws → ws.length = data.length) :
    ∃ H : List W, calcStats data l weights = .ok H ∧ H.length = l.prod.toNat ∧
      ∀ k : Nat, k < l.prod.toNat → H[k]? = some ((((data.map (fun a => radix a l)).zip
        (weights.getD (List.replicate data.length 1))).filter (fun iw => iw.1 = (k : Int))).map Prod.snd).sum := by
  obtain ⟨s, h1, h2⟩ := getLast_prod hl
  have hpos : 0 < l.prod := List.prod_pos (fun t ht => hp t ht)
  have hmap := mapM_ok (f := flatIndex (szCumProd l)) (g := fun a => radix a l) data (fun a ha => flatIndex_eq hl (hd a ha))
  have hnn : ∀ i ∈ data.map (fun a => radix a l), 0 ≤ i ∧ i < l.prod := by
    intro i hi
    obtain ⟨a, ha, rfl⟩ := List.mem_map.1 hi
    exact (hd a ha).radix_lt
  have hlen : (weights.getD (List.replicate data.length 1)).length = (data.map (fun a => radix a l)).length := by
    cases weights with
    | none => simp
    | some ws => simp [hw ws rfl]
  have hn : (data.map (fun a => radix a l)).foldl (fun m i => max m (i.toNat + 1)) l.prod.toNat = l.prod.toNat :=
    foldl_max_eq _ _ (fun i hi => by have := hnn i hi; omega) (fun i hi => (hnn i hi).1)
  rw [calcStats, h1]
  dsimp only
  rw [py_bind hmap, bincount, h2, if_neg (by
    rintro (h | ⟨i, hi, h⟩)
    · omega
    · exact absurd (hnn i hi).1 (by omega))]
  dsimp only
  rw [List.length_map, if_neg (by rw [hlen]; simp), hn]
  refine ⟨_, rfl, by simp, ?_⟩
  intro k hk
  simp [List.getElem?_map, List.getElem?_range hk]

end Verif
