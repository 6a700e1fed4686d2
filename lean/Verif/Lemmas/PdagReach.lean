import Verif.Lemmas.Reach
import Verif.Spec.Pdag

/-!
# Undirected reachability in a PDAG
-/

namespace Verif
open Relation
variable {α : Type} [DecidableEq α]
namespace MG

/-- Last visit to a set. -/
theorem rtg_last_in {R : α → α → Prop} (A : Finset α) {x b : α} (h : ReflTransGen R x b) :
    ∃ c, (c = x ∨ (c ∈ A ∧ ∃ p, R p c)) ∧ ReflTransGen (fun u v => R u v ∧ v ∉ A) c b := by
  induction h using ReflTransGen.head_induction_on with
  | refl => exact ⟨b, Or.inl rfl, .refl⟩
  | @head x y hxy _ ih =>
    obtain ⟨c, hc, hcb⟩ := ih
    rcases hc with rfl | hc
    · by_cases hA : c ∈ A
      · exact ⟨c, Or.inr ⟨hA, x, hxy⟩, hcb⟩
      · exact ⟨x, Or.inl rfl, .head ⟨hxy, hA⟩ hcb⟩
    · exact ⟨c, Or.inr hc, hcb⟩

theorem undLoop_spec {rec : α → Finset α → Py Bool} {en : Finset α} {P : α → Finset α → Prop} :
    ∀ (l : List α) (past : Finset α),
    (∀ v ∈ l, ∀ past', ∃ b, rec v (en \ insert v past') = .ok b ∧ (b = true ↔ P v (en \ insert v past'))) →
    ∃ b, undLoop rec en l past = .ok b ∧
      (b = true → ∃ v ∈ l, ∃ past', P v (en \ past')) ∧
      ((∃ v ∈ l, ∀ past', past' ⊆ past ∪ l.toFinset → P v (en \ past')) → b = true) := by
  intro l
  induction l with
  | nil => intro past _; exact ⟨false, rfl, by simp, by simp⟩
  | cons v l ih =>
    intro past h
    obtain ⟨b, h1, h2⟩ := h v (by simp) past
    cases b with
    | true =>
      refine ⟨true, by simp only [undLoop, h1]; rfl, fun _ => ⟨v, by simp, insert v past, h2.mp rfl⟩, fun _ => rfl⟩
    | false =>
      obtain ⟨b', k1, k2, k3⟩ := ih (insert v past) (fun w hw => h w (List.mem_cons_of_mem _ hw))
      refine ⟨b', by simp only [undLoop, h1]; exact k1, fun hb => ?_, ?_⟩
      · obtain ⟨w, hw, past', hp⟩ := k2 hb
        exact ⟨w, List.mem_cons_of_mem _ hw, past', hp⟩
      · rintro ⟨w, hw, hp⟩
        rcases List.mem_cons.mp hw with rfl | hw
        · have : P w (en \ insert w past) := hp _ (by
            intro x hx
            rcases Finset.mem_insert.mp hx with rfl | hx
            · simp
            · simp [hx])
          exact absurd (h2.mpr this) (by simp)
        · refine k3 ⟨w, hw, fun past' hs => hp past' (hs.trans ?_)⟩
          intro x hx
          simp only [Finset.mem_union, Finset.mem_insert, List.mem_toFinset, List.mem_cons] at hx ⊢
          tauto

omit [DecidableEq α] in
theorem UndVia.mono {G : MG α} {en en' : Finset α} (h : en ⊆ en') {s : α} {T : Finset α} (hv : G.UndVia en s T) :
    G.UndVia en' s T := by
  obtain ⟨b, t, ht, h1, h2⟩ := hv
  exact ⟨b, t, ht, rtg_mono (fun _ _ h3 => ⟨h3.1, h h3.2⟩) h1, h2⟩

/-- The recursion step: a walk either is a single edge, or goes on from a neighbour that is not visited again. -/
theorem UndVia.step {G : MG α} {en : Finset α} {s : α} {T : Finset α} :
    G.UndVia en s T ↔ (∃ t ∈ T, t ∈ G.und s) ∨ ∃ n ∈ G.und s ∩ en, G.UndVia (en \ insert s (G.und s ∩ en)) n T := by
  constructor
  · rintro ⟨b, t, ht, h1, h2⟩
    obtain ⟨c, hc, hcb⟩ := rtg_last_in (insert s (G.und s ∩ en)) h1
    have hcb' : ReflTransGen (fun u v => v ∈ G.und u ∧ v ∈ en \ insert s (G.und s ∩ en)) c b :=
      rtg_mono (fun u v h => ⟨h.1.1, Finset.mem_sdiff.mpr ⟨h.1.2, h.2⟩⟩) hcb
    by_cases hcs : c = s
    · subst hcs
      rcases ReflTransGen.cases_head hcb with rfl | ⟨n, hn, -⟩
      · exact Or.inl ⟨t, ht, h2⟩
      · exact absurd (Finset.mem_insert_of_mem (Finset.mem_inter.mpr hn.1)) hn.2
    · rcases hc with rfl | ⟨hc, -⟩
      · exact absurd rfl hcs
      · exact Or.inr ⟨c, (Finset.mem_insert.mp hc).resolve_left hcs, b, t, ht, hcb', h2⟩
  · rintro (⟨t, ht, h⟩ | ⟨n, hn, hv⟩)
    · exact ⟨s, t, ht, .refl, h⟩
    · obtain ⟨b, t, ht, h1, h2⟩ := hv.mono Finset.sdiff_subset
      exact ⟨b, t, ht, .head (Finset.mem_inter.mp hn) h1, h2⟩

/-- One level of either recursion. -/
theorem undLoop_step (o : SetOrder α) {τ : Type} (tag : τ) {G : MG α} {rec : α → Finset α → Py Bool} {s : α} {T en : Finset α}
    (hr : ∀ v ∈ en, ∀ past', ∃ b, rec v (en \ insert v past') = .ok b ∧ (b = true ↔ G.UndVia (en \ insert v past') v T))
    (hT : ¬ ∃ t ∈ T, t ∈ G.und s) :
    ∃ b, undLoop rec en (o.iter tag (G.und s ∩ en)) {s} = .ok b ∧ (b = true ↔ G.UndVia en s T) := by
  obtain ⟨b, h1, h2, h3⟩ := undLoop_spec (P := fun v e => G.UndVia e v T) (o.iter tag (G.und s ∩ en)) {s}
    (fun v hv => hr v (Finset.mem_inter.mp ((o.mem _ _ _).mp hv)).2)
  refine ⟨b, h1, fun hb => ?_, fun hv => ?_⟩
  · obtain ⟨v, hv, past, hp⟩ := h2 hb
    obtain ⟨c, t, ht, k1, k2⟩ := UndVia.mono Finset.sdiff_subset hp
    exact ⟨c, t, ht, .head (Finset.mem_inter.mp ((o.mem _ _ _).mp hv)) k1, k2⟩
  · rcases UndVia.step.mp hv with h | ⟨n, hn, hv⟩
    · exact absurd h hT
    · refine h3 ⟨n, (o.mem _ _ _).mpr hn, fun past hp => hv.mono (Finset.sdiff_subset_sdiff subset_rfl ?_)⟩
      refine hp.trans fun x hx => ?_
      simp only [Finset.mem_union, Finset.mem_singleton, List.mem_toFinset, o.mem] at hx
      exact Finset.mem_insert.mpr hx

theorem isReachableUndFuel_spec (o : SetOrder α) (G : MG α) (t : α) : ∀ (n : Nat) (s : α) (en : Finset α), en.card < n →
    ∃ b, isReachableUndFuel o G n s t en = .ok b ∧ (b = true ↔ G.UndVia en s {t}) := by
  intro n
  induction n with
  | zero => intro s en h; omega
  | succ n ih =>
    intro s en h
    by_cases ht : t ∈ G.und s
    · refine ⟨true, by rw [isReachableUndFuel, if_pos ht], fun _ => ⟨s, t, by simp, .refl, ht⟩, fun _ => rfl⟩
    · rw [isReachableUndFuel, if_neg ht]
      refine undLoop_step o _ (fun v hv past' => ih v _ ?_) (by simpa using ht)
      have := Finset.card_lt_card (Finset.ssubset_iff_of_subset (Finset.sdiff_subset (s := en) (t := insert v past'))
        |>.mpr ⟨v, hv, by simp⟩)
      omega

theorem isReachableAnyUndFuel_spec (o : SetOrder α) (G : MG α) (T : Finset α) : ∀ (n : Nat) (s : α) (en : Finset α), en.card < n →
    ∃ b, isReachableAnyUndFuel o G n s T en = .ok b ∧ (b = true ↔ G.UndVia en s T) := by
  intro n
  induction n with
  | zero => intro s en h; omega
  | succ n ih =>
    intro s en h
    by_cases ht : ((o.iter (s, T) (G.und s)).any (fun v => v ∈ T)) = true
    · refine ⟨true, by rw [isReachableAnyUndFuel, if_pos ht], fun _ => ?_, fun _ => rfl⟩
      obtain ⟨t, h1, h2⟩ := List.any_eq_true.mp ht
      exact ⟨s, t, by simpa using h2, .refl, (o.mem _ _ _).mp h1⟩
    · rw [isReachableAnyUndFuel, if_neg ht]
      refine undLoop_step o _ (fun v hv past' => ih v _ ?_) ?_
      · have := Finset.card_lt_card (Finset.ssubset_iff_of_subset (Finset.sdiff_subset (s := en) (t := insert v past'))
          |>.mpr ⟨v, hv, by simp⟩)
        omega
      · rintro ⟨t, h1, h2⟩
        exact ht (List.any_eq_true.mpr ⟨t, (o.mem _ _ _).mpr h2, by simpa using h1⟩)

end MG
end Verif
