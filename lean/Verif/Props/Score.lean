import Verif.Lemmas.Score
import Verif.Props.Pdag
import Verif.Props.Synth
import Mathlib.Tactic.NormNum

/-!
# C57, C62: BDeu score and threshold search
-/

namespace Verif
open Score

section
variable {data : List (List Int)} {sizes : List Int}

/-- C62: on data whose values are below the sizes, the score of an acyclic graph is the BDeu formula with equivalent sample size 1, for every
set iteration order. `en_nodes` selects the nodes whose terms are added. -/
theorem C62_formula (o : SetOrder Nat) (L : ℝ → ℝ) {G : Dag Nat} (hG : G.WF) (hac : G.Acyclic) (hd : ∀ r ∈ data, InSizes r sizes)
    (hp : ∀ s ∈ sizes, 0 < s) (hn : ∀ v ∈ G.nodes, v < sizes.length) (en : Option (Finset Nat)) (hen : en.getD G.nodes ⊆ G.nodes) :
    scoreBdeu o L (some G) data sizes en = .ok ((bdeu L data sizes G (en.getD G.nodes) : ℝ) : WithBot ℝ) :=
  scoreBdeu_spec o L hG (fun v hv => hac v (.single hv)) hd hp hn en hen

/-- C62, score equivalence: Markov equivalent DAGs have the same score, whatever function stands for `gammaln`. -/
theorem C62_equivalent (o o' : SetOrder Nat) (L : ℝ → ℝ) {G H : Dag Nat} (hG : G.WF) (hac : G.Acyclic) (he : G.Equivalent H)
    (hd : ∀ r ∈ data, InSizes r sizes) (hp : ∀ s ∈ sizes, 0 < s) (hn : ∀ v ∈ G.nodes, v < sizes.length) :
    scoreBdeu o L (some G) data sizes none = scoreBdeu o' L (some H) data sizes none := by
  rw [C62_formula o L hG hac hd hp hn none (Finset.Subset.refl _),
    C62_formula o' L he.wf he.acyclic hd hp (by rw [he.nodes]; exact hn) none (Finset.Subset.refl _)]
  have key : ∀ D : Dag Nat, bdeu L data sizes D D.nodes = ∑ v ∈ D.nodes,
      ((fun S => ∑ c ∈ configs sizes S, (L (alpha sizes S + countOf data S c) - L (alpha sizes S))) (insert v (D.par v)) -
       (fun S => ∑ c ∈ configs sizes S, (L (alpha sizes S + countOf data S c) - L (alpha sizes S))) (D.par v)) := by
    intro D
    refine Finset.sum_congr rfl (fun v _ => ?_)
    rw [bdeuTerm, add_comm, sub_eq_add_neg, ← Finset.sum_neg_distrib]
    congr 1
    exact Finset.sum_congr rfl (fun c _ => by ring)
  rw [Option.getD_none, Option.getD_none, key G, key H]
  exact congrArg (fun x : ℝ => (.ok (x : WithBot ℝ) : Py (WithBot ℝ))) (sum_equivalent hG hac he
    (fun S => ∑ c ∈ configs sizes S, (L (alpha sizes S + countOf data S c) - L (alpha sizes S))))

/-- C62, locality: the score is a sum of terms that depend on a node and its parents only. Two DAGs over the same nodes differ by the terms of
the nodes whose parents differ. -/
theorem C62_local (L : ℝ → ℝ) {G H : Dag Nat} (hn : H.nodes = G.nodes) :
    bdeu L data sizes H H.nodes - bdeu L data sizes G G.nodes =
      ∑ v ∈ G.nodes.filter (fun v => H.par v ≠ G.par v), (bdeuTerm L data sizes (H.par v) v - bdeuTerm L data sizes (G.par v) v) := by
  rw [bdeu, bdeu, hn, ← Finset.sum_sub_distrib, Finset.sum_filter]
  refine Finset.sum_congr rfl (fun v _ => ?_)
  by_cases h : H.par v = G.par v
  · rw [if_neg (not_not.mpr h), h, sub_self]
  · rw [if_pos h]

/-- C62, special cases: no DAG gives `-inf`; a node outside the graph in `en_nodes` raises KeyError. -/
theorem C62_no_dag (o : SetOrder Nat) (L : ℝ → ℝ) (en : Option (Finset Nat)) : scoreBdeu o L none data sizes en = .ok ⊥ := rfl

theorem C62_unknown_node (o : SetOrder Nat) (L : ℝ → ℝ) {G : Dag Nat} (hG : G.WF) (hac : G.Acyclic) (hd : ∀ r ∈ data, InSizes r sizes)
    (hp : ∀ s ∈ sizes, 0 < s) (hn : ∀ v ∈ G.nodes, v < sizes.length) {T : Finset Nat} {v : Nat} (hv : v ∈ T) (hvG : v ∉ G.nodes) :
    scoreBdeu o L (some G) data sizes (some T) = .error .keyError := by
  have herr : ∀ u, u ∉ G.nodes → scoreNode o L G data sizes u = .error .keyError := by
    intro u hu
    rw [scoreNode, show G.parents u = .error .keyError from if_neg hu]
    rfl
  rw [scoreBdeu, Option.getD_some, Synth.foldlM_err (e := .keyError) (o.iter () T)]
  · rfl
  · intro s u _
    by_cases hu : u ∈ G.nodes
    · refine Or.inl ⟨s + bdeuTerm L data sizes (G.par u) u, ?_⟩
      rw [scoreNode_spec o L hG (fun v hv => hac v (.single hv)) hd hp hn hu]
      rfl
    · refine Or.inr ?_
      rw [herr u hu]
      rfl
  · refine ⟨v, (o.mem () T v).mpr hv, fun s => ?_⟩
    rw [herr v hvG]
    rfl

/-- The
hypotheses hold for three variables with 2, 2 and 3 values, two records and a complete graph. -/
example : exSem.WF ∧ exSem.Acyclic ∧ (∀ r ∈ [[0, 1, 1], [1, 0, 2]], InSizes r [2, 2, 3]) ∧ (∀ s ∈ ([2, 2, 3] : List Int), 0 < s) ∧
    ∀ v ∈ exSem.nodes, v < ([2, 2, 3] : List Int).length := by
  refine ⟨exSem_wf.1, exSem_wf.2, ?_, by decide, by decide⟩
  intro r hr
  simp only [List.mem_cons, List.not_mem_nil, or_false] at hr
  rcases hr with rfl | rfl <;> simp [InSizes]

/-- Two different DAGs that are Markov equivalent: `0 → 1` and `1 → 0`. -/
example : ∃ G H : Dag Nat, G.WF ∧ G.Acyclic ∧ G.Equivalent H ∧ G.Edge 0 1 ∧ H.Edge 1 0 := by
  have h1 : ∀ a b, (⟨{0, 1}, fun v => if v = 1 then {0} else ∅⟩ : Dag Nat).Edge a b ↔ a = 0 ∧ b = 1 := by
    intro a b
    by_cases hb : b = 1 <;> simp [Dag.Edge, hb]
  have h2 : ∀ a b, (⟨{0, 1}, fun v => if v = 0 then {1} else ∅⟩ : Dag Nat).Edge a b ↔ a = 1 ∧ b = 0 := by
    intro a b
    by_cases hb : b = 0 <;> simp [Dag.Edge, hb]
  have a1 : (⟨{0, 1}, fun v => if v = 1 then {0} else ∅⟩ : Dag Nat).Acyclic := by
    intro v hv
    have : ∀ x y, Relation.TransGen (⟨{0, 1}, fun v => if v = 1 then {0} else ∅⟩ : Dag Nat).Edge x y → x < y := by
      intro x y h
      induction h with
      | single h => have := (h1 _ _).mp h; omega
      | tail _ h ih => have := (h1 _ _).mp h; omega
    exact lt_irrefl _ (this v v hv)
  have a2 : (⟨{0, 1}, fun v => if v = 0 then {1} else ∅⟩ : Dag Nat).Acyclic := by
    intro v hv
    have : ∀ x y, Relation.TransGen (⟨{0, 1}, fun v => if v = 0 then {1} else ∅⟩ : Dag Nat).Edge x y → y < x := by
      intro x y h
      induction h with
      | single h => have := (h2 _ _).mp h; omega
      | tail _ h ih => have := (h2 _ _).mp h; omega
    exact lt_irrefl _ (this v v hv)
  refine ⟨⟨{0, 1}, fun v => if v = 1 then {0} else ∅⟩, ⟨{0, 1}, fun v => if v = 0 then {1} else ∅⟩, ?_, a1, ⟨rfl, ?_, a2, ?_, ?_⟩, (h1 0 1).mpr ⟨rfl, rfl⟩, (h2 1 0).mpr ⟨rfl, rfl⟩⟩
  · intro a b h
    obtain ⟨rfl, rfl⟩ := (h1 a b).mp h
    decide
  · intro a b h
    obtain ⟨rfl, rfl⟩ := (h2 a b).mp h
    decide
  · intro a b
    simp only [Dag.Adj, h1, h2]
    omega
  · intro a b c
    simp only [Dag.UCol, h1, h2]
    omega

/-! ### threshold search -/

/-- The score that the search records for a learned graph. -/
def Recorded (o : SetOrder Nat) (L : ℝ → ℝ) (data : List (List Int)) (sizes : List Int) (P : MG Nat) (s : WithBot ℝ) : Prop :=
  ∃ D flag, P.convertToDag o (Dag.empty P.nodes) = .ok (D, flag) ∧
    if flag = true then scoreBdeu o L (some D) data sizes none = .ok s else s = ⊥

/-- C57: if the search ends, it has one score per threshold, in the order of the list: the score of the graph learned with this
threshold. The returned threshold is the last one with the greatest score; for an empty list it is the initial value `inf`. -/
theorem C57_best {τ : Type} (o : SetOrder Nat) (L : ℝ → ℝ) {learn : List τ → τ → Py (MG Nat)} {ths : List τ}
    {best : Option τ} {scores : List (WithBot ℝ)} (h : searchThreshold o L learn data sizes ths = .ok (best, scores)) :
    scores.length = ths.length ∧
    (∀ (i : Nat) th s, ths[i]? = some th → scores[i]? = some s →
      ∃ P, learn (ths.take i) th = .ok P ∧ Recorded o L data sizes P s) ∧
    (ths = [] → best = none) ∧
    (ths ≠ [] → ∃ (i : Nat) (th : τ) (s : WithBot ℝ), best = some th ∧ ths[i]? = some th ∧ scores[i]? = some s ∧
      (∀ s' ∈ scores, s' ≤ s) ∧ ∀ (j : Nat) s', i < j → scores[j]? = some s' → s' < s) := by
  have key : ∀ (rest seen : List τ) (s r : Option τ × WithBot ℝ × List (WithBot ℝ)),
      searchLoop o L learn data sizes seen rest s = .ok r →
      (s.2.2.length = seen.length ∧
        (∀ (i : Nat) th x, seen[i]? = some th → s.2.2[i]? = some x → ∃ P, learn (seen.take i) th = .ok P ∧ Recorded o L data sizes P x) ∧
        (seen = [] → s.1 = none ∧ s.2.1 = ⊥) ∧
        (seen ≠ [] → ∃ (i : Nat) (th : τ), s.1 = some th ∧ seen[i]? = some th ∧ s.2.2[i]? = some s.2.1 ∧
          (∀ x ∈ s.2.2, x ≤ s.2.1) ∧ ∀ (j : Nat) x, i < j → s.2.2[j]? = some x → x < s.2.1)) →
      (r.2.2.length = (seen ++ rest).length ∧
        (∀ (i : Nat) th x, (seen ++ rest)[i]? = some th → r.2.2[i]? = some x →
          ∃ P, learn ((seen ++ rest).take i) th = .ok P ∧ Recorded o L data sizes P x) ∧
        (seen ++ rest = [] → r.1 = none ∧ r.2.1 = ⊥) ∧
        (seen ++ rest ≠ [] → ∃ (i : Nat) (th : τ), r.1 = some th ∧ (seen ++ rest)[i]? = some th ∧ r.2.2[i]? = some r.2.1 ∧
          (∀ x ∈ r.2.2, x ≤ r.2.1) ∧ ∀ (j : Nat) x, i < j → r.2.2[j]? = some x → x < r.2.1)) := by
    intro rest
    induction rest with
    | nil =>
      intro seen s r hr hI
      rw [searchLoop] at hr
      cases hr
      simpa using hI
    | cons th rest ih =>
      intro seen s r hr ⟨hI1, hI2, hI3, hI4⟩
      rw [searchLoop] at hr
      obtain ⟨P, p1, hr⟩ := py_bind_ok hr
      obtain ⟨⟨D, flag⟩, d1, hr⟩ := py_bind_ok hr
      obtain ⟨score, s1, hr⟩ := py_bind_ok hr
      have hrec : Recorded o L data sizes P score := by
        refine ⟨D, flag, d1, ?_⟩
        cases flag with
        | true => simpa using s1
        | false =>
          simp only [Bool.false_eq_true, if_false] at s1 ⊢
          cases s1
          rfl
      have := ih (seen ++ [th]) _ r hr ?_
      · simpa using this
      · refine ⟨?_, ?_, fun h => by simp at h, fun _ => ?_⟩
        · split <;> simp [hI1]
        · intro i th' x h1 h2
          have h2' : (s.2.2 ++ [score])[i]? = some x := by
            split at h2 <;> exact h2
          by_cases hi : i < seen.length
          · rw [List.getElem?_append_left hi] at h1
            rw [List.getElem?_append_left (by omega)] at h2'
            rw [List.take_append_of_le_length hi.le]
            exact hI2 i th' x h1 h2'
          · obtain ⟨hlt, -⟩ := List.getElem?_eq_some_iff.mp h1
            rw [List.length_append, List.length_singleton] at hlt
            obtain rfl : i = seen.length := by omega
            rw [List.getElem?_concat_length] at h1
            rw [← hI1, List.getElem?_concat_length] at h2'
            cases h1
            cases h2'
            rw [List.take_left]
            exact ⟨P, p1, hrec⟩
        · by_cases hle : s.2.1 ≤ score
          · rw [if_pos hle]
            refine ⟨seen.length, th, rfl, by simp, by rw [← hI1]; simp, ?_, ?_⟩
            · intro x hx
              rw [List.mem_append, List.mem_singleton] at hx
              rcases hx with hx | rfl
              · by_cases hs : seen = []
                · subst hs
                  rw [List.length_nil, List.length_eq_zero_iff] at hI1
                  rw [hI1] at hx
                  cases hx
                · obtain ⟨i, th', -, -, -, h5, -⟩ := hI4 hs
                  exact (h5 x hx).trans hle
              · exact le_refl _
            · intro j x hj hx
              obtain ⟨hlt, -⟩ := List.getElem?_eq_some_iff.mp hx
              rw [List.length_append, List.length_singleton] at hlt
              omega
          · rw [if_neg hle]
            have hs : seen ≠ [] := by
              rintro rfl
              rw [(hI3 rfl).2] at hle
              exact hle bot_le
            obtain ⟨i, th', h1, h2, h3, h4, h5⟩ := hI4 hs
            have hi : i < seen.length := by
              obtain ⟨hlt, -⟩ := List.getElem?_eq_some_iff.mp h2
              exact hlt
            refine ⟨i, th', h1, by rw [List.getElem?_append_left hi]; exact h2,
              by rw [List.getElem?_append_left (by omega)]; exact h3, ?_, ?_⟩
            · intro x hx
              rw [List.mem_append, List.mem_singleton] at hx
              rcases hx with hx | rfl
              · exact h4 x hx
              · exact (not_le.mp hle).le
            · intro j x hj hx
              by_cases hjl : j < seen.length
              · rw [List.getElem?_append_left (by omega)] at hx
                exact h5 j x hj hx
              · obtain ⟨hlt, -⟩ := List.getElem?_eq_some_iff.mp hx
                rw [List.length_append, List.length_singleton] at hlt
                obtain rfl : j = s.2.2.length := by omega
                rw [List.getElem?_concat_length] at hx
                cases hx
                exact not_le.mp hle
  rw [searchThreshold] at h
  obtain ⟨r, h1, h2⟩ := py_bind_ok h
  cases h2
  obtain ⟨k1, k2, k3, k4⟩ := key ths [] (none, ⊥, []) r h1 (by simp)
  rw [List.nil_append] at k1 k2 k3 k4
  refine ⟨k1, k2, fun he => (k3 he).1, fun he => ?_⟩
  obtain ⟨i, th, a1, a2, a3, a4, a5⟩ := k4 he
  exact ⟨i, th, r.2.1, a1, a2, a3, a4, a5⟩

/-- Two consistent extensions of one PDAG are Markov equivalent. -/
theorem extension_equivalent {P : MG Nat} {D E : Dag Nat} (hD : P.Extension D) (hE : P.Extension E) : D.Equivalent E := by
  have key : ∀ {D E : Dag Nat}, P.Extension D → P.Extension E → ∀ a b c, D.UCol a b c → E.UCol a b c := by
    intro D E hD hE a b c h
    obtain ⟨h1, h2, h3, h4⟩ := hD.ucol a b c h
    exact ⟨hE.dir _ _ h1, hE.dir _ _ h2, h3, fun h5 => h4 ((hE.adj a c).mp h5)⟩
  exact ⟨hE.nodes.trans hD.nodes.symm, hE.wf, hE.acyclic, fun a b => (hE.adj a b).trans (hD.adj a b).symm,
    fun a b c => ⟨key hE hD a b c, key hD hE a b c⟩⟩

/-- C57: the recorded score is that of the equivalence class: it is the score of every consistent extension of the learned PDAG, and `-inf`
exactly if there is none. It does not depend on the extension that `convert_to_dag` selects. -/
theorem C57_score (o : SetOrder Nat) (L : ℝ → ℝ) {P : MG Nat} (hP : P.PdagWF) (hd : ∀ r ∈ data, InSizes r sizes)
    (hp : ∀ s ∈ sizes, 0 < s) (hn : ∀ v ∈ P.nodes, v < sizes.length) :
    ∃ s, Recorded o L data sizes P s ∧ (∀ s', Recorded o L data sizes P s' → s' = s) ∧
      (∀ E, P.Extension E → s = ((bdeu L data sizes E P.nodes : ℝ) : WithBot ℝ)) ∧ (s = ⊥ ↔ ¬ ∃ E, P.Extension E) := by
  obtain ⟨D, flag, h1, h2⟩ := C19_complete o hP
  cases flag with
  | false =>
    have hno : ¬ ∃ E, P.Extension E := fun h => by have := h2.mpr h; cases this
    refine ⟨⊥, ⟨D, false, h1, by simp⟩, ?_, fun E hE => absurd ⟨E, hE⟩ hno, by simp [hno]⟩
    rintro s' ⟨D', flag', h3, h4⟩
    rw [h1] at h3
    cases h3
    simpa using h4
  | true =>
    have hD := C18_sound o hP h1
    have hs := C62_formula o L hD.wf hD.acyclic hd hp (by rw [hD.nodes]; exact hn) none (Finset.Subset.refl _)
    refine ⟨((bdeu L data sizes D D.nodes : ℝ) : WithBot ℝ), ⟨D, true, h1, ?_⟩, ?_, ?_, ?_⟩
    · rw [if_pos rfl]
      exact hs
    · rintro s' ⟨D', flag', h3, h4⟩
      rw [h1] at h3
      cases h3
      rw [if_pos rfl, hs] at h4
      cases h4
      rfl
    · intro E hE
      have h5 := C62_equivalent o o L hD.wf hD.acyclic (extension_equivalent hD hE) hd hp (by rw [hD.nodes]; exact hn)
      rw [hs, C62_formula o L hE.wf hE.acyclic hd hp (by rw [hE.nodes]; exact hn) none (Finset.Subset.refl _)] at h5
      have h6 := Except.ok.inj h5
      rw [Option.getD_none, Option.getD_none, hE.nodes] at h6
      exact h6
    · simp only [WithBot.coe_ne_bot, false_iff, not_not]
      exact ⟨D, hD⟩

/-- C57: if every run of the algorithm returns a PDAG over columns of the data, the search ends without error. -/
theorem C57_total {τ : Type} (o : SetOrder Nat) (L : ℝ → ℝ) {learn : List τ → τ → Py (MG Nat)} {ths : List τ}
    (hd : ∀ r ∈ data, InSizes r sizes) (hp : ∀ s ∈ sizes, 0 < s)
    (hl : ∀ seen, ∀ th ∈ ths, ∃ P, learn seen th = .ok P ∧ P.PdagWF ∧ ∀ v ∈ P.nodes, v < sizes.length) :
    ∃ best scores, searchThreshold o L learn data sizes ths = .ok (best, scores) := by
  have key : ∀ (rest seen : List τ) (s : Option τ × WithBot ℝ × List (WithBot ℝ)), (∀ th ∈ rest, th ∈ ths) →
      ∃ r, searchLoop o L learn data sizes seen rest s = .ok r := by
    intro rest
    induction rest with
    | nil => exact fun seen s _ => ⟨s, rfl⟩
    | cons th rest ih =>
      intro seen s hm
      obtain ⟨P, p1, p2, p3⟩ := hl seen th (hm th List.mem_cons_self)
      obtain ⟨x, ⟨D, flag, h1, h2⟩, -⟩ := C57_score o L p2 hd hp p3
      rw [searchLoop, py_bind p1, py_bind h1]
      have h3 : (if flag = true then scoreBdeu o L (some D) data sizes none else pure ⊥ : Py (WithBot ℝ)) = .ok x := by
        cases flag with
        | true => simpa using h2
        | false =>
          simp only [Bool.false_eq_true, if_false] at h2 ⊢
          rw [h2]
          rfl
      simp only
      rw [py_bind h3]
      exact ih _ _ (fun t ht => hm t (List.mem_cons_of_mem _ ht))
  obtain ⟨r, h⟩ := key ths [] (none, ⊥, []) (fun _ h => h)
  refine ⟨r.1, r.2.2, ?_⟩
  rw [searchThreshold, py_bind h]
  rfl

/-- The hypotheses of `C57_total` hold for an algorithm that always returns the PDAG of the tests, with three thresholds. -/
example (o : SetOrder Nat) (L : ℝ → ℝ) : ∃ best scores,
    searchThreshold o L (fun _ (_ : Nat) => .ok exP4) [[0, 1, 1, 0], [1, 0, 1, 1]] [2, 2, 2, 2] [5, 6, 7] = .ok (best, scores) := by
  refine C57_total o L ?_ (by decide) (fun _ _ _ => ⟨exP4, rfl, C17_rule4_unsound.1, by decide⟩)
  intro r hr
  simp only [List.mem_cons, List.not_mem_nil, or_false] at hr
  rcases hr with rfl | rfl <;> simp [InSizes]

end
end Verif
