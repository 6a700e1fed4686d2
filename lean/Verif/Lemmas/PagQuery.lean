import Verif.Model.Pag
import Verif.Spec.Pag
import Verif.Lemmas.MixedEdit
import Verif.Lemmas.Reach
import Verif.Lemmas.Py

/-!
# Local queries, possible ancestors, uncovered and discriminating paths in PAGs
-/

namespace Verif
open Relation

theorem setComp_spec {α : Type} [DecidableEq α] {p : α → Py Bool} {P : α → Prop} :
    ∀ (l : List α), (∀ x ∈ l, ∃ b, p x = .ok b ∧ (b = true ↔ P x)) →
      ∃ S, setComp p l = .ok S ∧ ∀ x, x ∈ S ↔ x ∈ l ∧ P x := by
  intro l
  induction l with
  | nil => intro _; exact ⟨∅, rfl, by simp⟩
  | cons a l ih =>
    intro h
    obtain ⟨b, hb, hb'⟩ := h a (by simp)
    obtain ⟨S, hS, hS'⟩ := ih (fun x hx => h x (by simp [hx]))
    refine ⟨if b then insert a S else S, by simp [setComp, hb, hS, bind, Except.bind, pure, Except.pure], fun x => ?_⟩
    cases b
    · have ha : ¬ P a := by simpa using hb'
      simp only [Bool.false_eq_true, if_false, hS', List.mem_cons]
      constructor
      · tauto
      · rintro ⟨rfl | h1, h2⟩
        · exact absurd h2 ha
        · exact ⟨h1, h2⟩
    · have ha : P a := by simpa using hb'
      simp only [if_true, Finset.mem_insert, hS', List.mem_cons]
      constructor
      · rintro (rfl | h1)
        · exact ⟨Or.inl rfl, ha⟩
        · exact ⟨Or.inr h1.1, h1.2⟩
      · tauto

theorem forFind_spec {β γ : Type} {f : β → Py (Option γ)} :
    ∀ (l : List β), (∀ x ∈ l, ∃ r, f x = .ok r) →
      ∃ r, forFind f l = .ok r ∧ (∀ y, r = some y → ∃ x ∈ l, f x = .ok (some y)) ∧
        (r = none → ∀ x ∈ l, f x = .ok none) := by
  intro l
  induction l with
  | nil => intro _; exact ⟨none, rfl, by simp, by simp⟩
  | cons a l ih =>
    intro h
    obtain ⟨r, hr⟩ := h a (by simp)
    cases r with
    | some y =>
      refine ⟨some y, by simp [forFind, hr, bind, Except.bind, pure, Except.pure], ?_, by simp⟩
      rintro y' hy'
      cases hy'
      exact ⟨a, by simp, hr⟩
    | none =>
      obtain ⟨r', h1, h2, h3⟩ := ih (fun x hx => h x (by simp [hx]))
      refine ⟨r', by simp [forFind, hr, h1, bind, Except.bind], ?_, ?_⟩
      · intro y hy
        obtain ⟨x, hx, hx'⟩ := h2 y hy
        exact ⟨x, by simp [hx], hx'⟩
      · intro hn x hx
        rcases List.mem_cons.1 hx with rfl | hx
        · exact hr
        · exact h3 hn x hx

/-- A walk contains a path. -/
theorem exists_path_of_rtg {α : Type} {r : α → α → Prop} {a b : α} (h : ReflTransGen r a b) :
    ∃ l : List α, (a :: l).Nodup ∧ (a :: l).IsChain r ∧ (a :: l).getLast? = some b := by
  classical
  induction h using ReflTransGen.head_induction_on with
  | refl => exact ⟨[], by simp, by simp, by simp⟩
  | @head a c hac _ ih =>
    obtain ⟨l, h1, h2, h3⟩ := ih
    by_cases ha : a ∈ c :: l
    · obtain ⟨p, s, hps⟩ := List.append_of_mem ha
      rw [hps] at h1 h2 h3
      refine ⟨s, (List.nodup_append.1 h1).2.1, (List.isChain_append.1 h2).2.1, ?_⟩
      rwa [List.getLast?_append_of_ne_nil _ (by simp)] at h3
    · refine ⟨c :: l, List.nodup_cons.2 ⟨ha, h1⟩, List.isChain_cons_cons.2 ⟨hac, h2⟩, ?_⟩
      rw [List.getLast?_cons_cons]
      exact h3

theorem rtg_of_path {α : Type} {r : α → α → Prop} {b : α} :
    ∀ (l : List α) (a : α), (a :: l).IsChain r → (a :: l).getLast? = some b → ReflTransGen r a b := by
  intro l
  induction l with
  | nil => intro a _ h; simp only [List.getLast?_singleton, Option.some.injEq] at h; rw [h]
  | cons c l ih =>
    intro a h1 h2
    rw [List.isChain_cons_cons] at h1
    rw [List.getLast?_cons_cons] at h2
    exact ReflTransGen.head h1.1 (ih c h1.2 h2)

/-- The part of a walk after its last visit to `S`. -/
theorem tg_last_exit {α : Type} [DecidableEq α] {R : α → α → Prop} {en S : Finset α} {x y : α}
    (h : TransGen (fun a b => R a b ∧ b ∈ en) x y) (hx : x ∈ S) (hy : y ∉ S) :
    ∃ w ∈ S, TransGen (fun a b => R a b ∧ b ∈ en \ S) w y := by
  induction h with
  | single h => exact ⟨x, hx, TransGen.single ⟨h.1, by simp [h.2, hy]⟩⟩
  | @tail b c _ h2 ih =>
    by_cases hb : b ∈ S
    · exact ⟨b, hb, TransGen.single ⟨h2.1, by simp [h2.2, hy]⟩⟩
    · obtain ⟨w, hw, hw'⟩ := ih hb
      exact ⟨w, hw, hw'.tail ⟨h2.1, by simp [h2.2, hy]⟩⟩

namespace MG
variable {α : Type} [DecidableEq α]

theorem reachAnyLoop_spec {R : α → α → Prop} {y : α} {rec : α → Finset α → Py Bool} {n : Nat}
    (hrec : ∀ v pool, pool.card < n → v ≠ y →
      ∃ b, rec v pool = .ok b ∧ (b = true ↔ TransGen (fun a b => R a b ∧ b ∈ pool) v y)) :
    ∀ (vs : List α) (en : Finset α), (∀ v ∈ vs, (en.erase v).card < n) → y ∉ vs →
      ∃ b, reachAnyLoop rec vs en = .ok b ∧
        (b = true → ∃ v ∈ vs, TransGen (fun a b => R a b ∧ b ∈ en) v y) ∧
        ((∃ v ∈ vs, TransGen (fun a b => R a b ∧ b ∈ en \ vs.toFinset) v y) → b = true) := by
  intro vs
  induction vs with
  | nil => intro en _ _; exact ⟨false, rfl, by simp, by simp⟩
  | cons v vs ih =>
    intro en hc hy
    simp only [List.mem_cons, not_or] at hy
    obtain ⟨b, hb, hb'⟩ := hrec v (en.erase v) (hc v (by simp)) (Ne.symm hy.1)
    cases b with
    | true =>
      refine ⟨true, by simp [reachAnyLoop, hb, bind, Except.bind, pure, Except.pure], fun _ => ?_, fun _ => rfl⟩
      exact ⟨v, by simp, tg_mono (fun a b h => ⟨h.1, Finset.mem_of_mem_erase h.2⟩) (hb'.1 rfl)⟩
    | false =>
      obtain ⟨b', h1, h2, h3⟩ := ih (en.erase v) (fun w hw => lt_of_le_of_lt
        (Finset.card_le_card (Finset.erase_subset_erase w (Finset.erase_subset _ _))) (hc w (by simp [hw]))) hy.2
      refine ⟨b', by simp [reachAnyLoop, hb, h1, bind, Except.bind], ?_, ?_⟩
      · intro hb''
        obtain ⟨w, hw, hw'⟩ := h2 hb''
        exact ⟨w, by simp [hw], tg_mono (fun a b h => ⟨h.1, Finset.mem_of_mem_erase h.2⟩) hw'⟩
      · rintro ⟨w, hw, hw'⟩
        have hcon : ∀ a b, R a b ∧ b ∈ en \ (v :: vs).toFinset → R a b ∧ b ∈ en.erase v \ vs.toFinset := by
          rintro a b ⟨h4, h5⟩
          simp only [List.toFinset_cons, Finset.mem_sdiff, Finset.mem_insert, not_or] at h5
          exact ⟨h4, by simp only [Finset.mem_sdiff, Finset.mem_erase]; tauto⟩
        rcases List.mem_cons.1 hw with rfl | hw
        · have : TransGen (fun a b => R a b ∧ b ∈ en.erase w) w y :=
            tg_mono (fun a b h => ⟨(hcon a b h).1, (Finset.mem_sdiff.1 (hcon a b h).2).1⟩) hw'
          exact absurd (hb'.2 this) (by simp)
        · exact h3 ⟨w, hw, tg_mono hcon hw'⟩

/-- One level of a pruned search. -/
theorem reachAny_step {R : α → α → Prop} {x y : α} (hxy : x ≠ y) {rec : α → Finset α → Py Bool} {n : Nat}
    (hrec : ∀ v pool, pool.card < n → v ≠ y →
      ∃ b, rec v pool = .ok b ∧ (b = true ↔ TransGen (fun a b => R a b ∧ b ∈ pool) v y))
    {en : Finset α} {vs : List α} (hvs : ∀ v, v ∈ vs ↔ R x v ∧ v ∈ en) (hy : y ∉ vs)
    (hirr : ¬ R x x) (hc : (en.erase x).card ≤ n) :
    ∃ b, reachAnyLoop rec vs (en.erase x) = .ok b ∧ (b = true ↔ TransGen (fun a b => R a b ∧ b ∈ en) x y) := by
  obtain ⟨b, h1, h2, h3⟩ := reachAnyLoop_spec hrec vs (en.erase x) (fun v hv => by
    have h1 := (hvs v).1 hv
    have : v ∈ en.erase x := Finset.mem_erase.2 ⟨by rintro rfl; exact hirr h1.1, h1.2⟩
    exact lt_of_lt_of_le (Finset.card_erase_lt_of_mem this) hc) hy
  refine ⟨b, h1, ?_, ?_⟩
  · intro hb
    obtain ⟨v, hv, hv'⟩ := h2 hb
    exact TransGen.head ((hvs v).1 hv) (tg_mono (fun a b h => ⟨h.1, Finset.mem_of_mem_erase h.2⟩) hv')
  · intro h
    obtain ⟨w, hw, hw'⟩ := tg_last_exit (S := insert x vs.toFinset) h (by simp) (by simp [hy, Ne.symm hxy])
    have hmem : ∀ a b, R a b ∧ b ∈ en \ insert x vs.toFinset → R a b ∧ b ∈ en.erase x \ vs.toFinset := by
      rintro a b ⟨h4, h5⟩
      simp only [Finset.mem_sdiff, Finset.mem_insert, not_or] at h5
      exact ⟨h4, by simp only [Finset.mem_sdiff, Finset.mem_erase]; tauto⟩
    rcases Finset.mem_insert.1 hw with rfl | hw
    · exfalso
      have : ∃ v, R w v ∧ v ∈ en \ insert w vs.toFinset := by
        rcases (TransGen.head'_iff.1 hw') with ⟨v, hv, _⟩
        exact ⟨v, hv⟩
      obtain ⟨v, hv1, hv2⟩ := this
      simp only [Finset.mem_sdiff, Finset.mem_insert, List.mem_toFinset, not_or] at hv2
      exact hv2.2.2 ((hvs v).2 ⟨hv1, hv2.1⟩)
    · exact h3 ⟨w, by simpa using hw, tg_mono hmem hw'⟩

theorem isPossibleParent_spec {G : MG α} (hT : ∀ a b m, G.At a b m → m ∈ G.types) (hirr : ∀ a m, ¬ G.At a a m) (p c : α) :
    ∃ b, G.isPossibleParent p c = .ok b ∧ (b = true ↔ G.PossPar p c) := by
  by_cases h : p = c
  · subst h
    refine ⟨false, by simp [isPossibleParent, pure, Except.pure], ?_⟩
    simp only [Bool.false_eq_true, false_iff]
    rintro ⟨h1, _⟩
    rcases h1 with ⟨m, h1⟩ | ⟨m, h1⟩ <;> exact hirr _ _ h1
  · obtain ⟨b, hb, hb'⟩ := proper_isConnected hT h
    cases b with
    | false =>
      refine ⟨false, by simp [isPossibleParent, h, hb, bind, Except.bind, pure, Except.pure], ?_⟩
      simp only [Bool.false_eq_true, false_iff] at hb' ⊢
      exact fun h => hb' h.1
    | true =>
      have had := hb'.1 rfl
      by_cases h2 : p ∈ G.g c .tail ∨ c ∈ G.g p .arrow
      · refine ⟨false, by simp [isPossibleParent, h, hb, h2, bind, Except.bind, pure, Except.pure], ?_⟩
        simp only [Bool.false_eq_true, false_iff]
        rintro ⟨_, h3, h4⟩
        rcases h2 with h2 | h2
        · exact h3 h2
        · exact h4 h2
      · refine ⟨true, by simp [isPossibleParent, h, hb, h2, bind, Except.bind, pure, Except.pure], ?_⟩
        simp only [true_iff]
        exact ⟨had, fun h3 => h2 (Or.inl h3), fun h3 => h2 (Or.inr h3)⟩

theorem findPossibleChildren_spec (o : SetOrder α) {G : MG α} (hT : ∀ a b m, G.At a b m → m ∈ G.types)
    (hirr : ∀ a m, ¬ G.At a a m) (p : α) (en : Finset α) :
    ∃ S, G.findPossibleChildren o p en = .ok S ∧ ∀ x, x ∈ S ↔ x ∈ en ∧ G.PossPar p x := by
  obtain ⟨S, h1, h2⟩ := setComp_spec (p := fun v => G.isPossibleParent p v) (P := fun v => G.PossPar p v)
    (o.iter (p, 0) en) (fun x _ => isPossibleParent_spec hT hirr p x)
  exact ⟨S, h1, fun x => by rw [h2, o.mem]⟩

theorem findPossibleParents_spec (o : SetOrder α) {G : MG α} (hT : ∀ a b m, G.At a b m → m ∈ G.types)
    (hirr : ∀ a m, ¬ G.At a a m) (c : α) (en : Finset α) :
    ∃ S, G.findPossibleParents o c en = .ok S ∧ ∀ x, x ∈ S ↔ x ∈ en ∧ G.PossPar x c := by
  obtain ⟨S, h1, h2⟩ := setComp_spec (p := fun v => G.isPossibleParent v c) (P := fun v => G.PossPar v c)
    (o.iter (c, 1) en) (fun x _ => isPossibleParent_spec hT hirr x c)
  exact ⟨S, h1, fun x => by rw [h2, o.mem]⟩

theorem possAncFuel_spec (o : SetOrder α) {G : MG α} (hT : ∀ a b m, G.At a b m → m ∈ G.types)
    (hirr : ∀ a m, ¬ G.At a a m) (y : α) :
    ∀ (n : Nat) (x : α) (en : Finset α), (en.erase x).card < n → x ≠ y →
      ∃ b, possAncFuel o G y n x en = .ok b ∧ (b = true ↔ TransGen (fun a b => G.PossPar a b ∧ b ∈ en) x y) := by
  intro n
  induction n with
  | zero => intro x en h; omega
  | succ n ih =>
    intro x en hc hxy
    obtain ⟨S, hS, hS'⟩ := findPossibleChildren_spec o hT hirr x en
    by_cases hy : y ∈ S
    · refine ⟨true, by simp [possAncFuel, hS, hy, bind, Except.bind, pure, Except.pure], ?_⟩
      simp only [true_iff]
      have := (hS' y).1 hy
      exact TransGen.single ⟨this.2, this.1⟩
    · have hrec : ∀ v pool, pool.card < n → v ≠ y →
          ∃ b, possAncFuel o G y n v pool = .ok b ∧
            (b = true ↔ TransGen (fun a b => G.PossPar a b ∧ b ∈ pool) v y) := by
        intro v pool hp hv
        exact ih v pool (lt_of_le_of_lt (Finset.card_le_card (Finset.erase_subset _ _)) hp) hv
      obtain ⟨b, h1, h2⟩ := reachAny_step hxy hrec (vs := o.iter (x, en) S) (en := en)
        (fun v => by rw [o.mem, hS']; tauto) (by rw [o.mem]; exact hy)
        (by rintro ⟨⟨m, h1⟩ | ⟨m, h1⟩, _⟩ <;> exact hirr _ _ h1) (by omega)
      refine ⟨b, ?_, h2⟩
      simp only [possAncFuel, hS, bind, Except.bind, hy, if_false, h1]

/-- A pruned search for a node from itself finds nothing. -/
theorem reachAnyLoop_self {y : α} {rec : α → Finset α → Py Bool} {n : Nat}
    (hrec : ∀ v pool, pool.card < n → y ∉ pool → rec v pool = .ok false) :
    ∀ (vs : List α) (en : Finset α), (∀ v ∈ vs, (en.erase v).card < n) → y ∉ en →
      reachAnyLoop rec vs en = .ok false := by
  intro vs
  induction vs with
  | nil => intro en _ _; rfl
  | cons v vs ih =>
    intro en hc hy
    have hy' : y ∉ en.erase v := fun h => hy (Finset.mem_of_mem_erase h)
    simp only [reachAnyLoop, hrec v (en.erase v) (hc v (by simp)) hy', bind, Except.bind, Bool.false_eq_true, if_false]
    exact ih (en.erase v) (fun w hw => lt_of_le_of_lt
        (Finset.card_le_card (Finset.erase_subset_erase w (Finset.erase_subset _ _))) (hc w (by simp [hw]))) hy'

theorem possAncFuel_notMem (o : SetOrder α) {G : MG α} (hT : ∀ a b m, G.At a b m → m ∈ G.types)
    (hirr : ∀ a m, ¬ G.At a a m) (y : α) :
    ∀ (n : Nat) (x : α) (en : Finset α), (en.erase x).card < n → x = y ∨ y ∉ en →
      possAncFuel o G y n x en = .ok false := by
  intro n
  induction n with
  | zero => intro x en h; omega
  | succ n ih =>
    intro x en hc hxy
    obtain ⟨S, hS, hS'⟩ := findPossibleChildren_spec o hT hirr x en
    have hPx : ¬ G.PossPar x x := by rintro ⟨⟨m, h1⟩ | ⟨m, h1⟩, _⟩ <;> exact hirr _ _ h1
    have hy : y ∉ S := by
      rw [hS']
      rintro ⟨h1, h2⟩
      rcases hxy with rfl | h
      · exact hPx h2
      · exact h h1
    have := reachAnyLoop_self (y := y) (rec := possAncFuel o G y n) (n := n)
      (fun v pool hp hv => ih v pool (lt_of_le_of_lt (Finset.card_le_card (Finset.erase_subset _ _)) hp) (Or.inr hv))
      (o.iter (x, en) S) (en.erase x) (fun v hv => by
        rw [o.mem, hS'] at hv
        have : v ∈ en.erase x := Finset.mem_erase.2 ⟨by rintro rfl; exact hPx hv.2, hv.1⟩
        exact lt_of_lt_of_le (Finset.card_erase_lt_of_mem this) (by omega)) (by
        rw [Finset.mem_erase]
        rintro ⟨h1, h2⟩
        rcases hxy with rfl | h
        · exact h1 rfl
        · exact h h2)
    simp only [possAncFuel, hS, bind, Except.bind, hy, if_false, this]

theorem isPossibleAncestor_spec (o : SetOrder α) {G : MG α} (hT : ∀ a b m, G.At a b m → m ∈ G.types)
    (hirr : ∀ a m, ¬ G.At a a m) (x y : α) (en : Finset α) :
    ∃ b, G.isPossibleAncestor o x y en = .ok b ∧
      (b = true ↔ x ≠ y ∧ TransGen (fun a b => G.PossPar a b ∧ b ∈ en) x y) := by
  have hc : (en.erase x).card < en.card + 1 := Nat.lt_succ_of_le (Finset.card_le_card (Finset.erase_subset _ _))
  by_cases h : x = y
  · exact ⟨false, possAncFuel_notMem o hT hirr y _ x en hc (Or.inl h), by simp [h]⟩
  · obtain ⟨b, h1, h2⟩ := possAncFuel_spec o hT hirr y _ x en hc h
    exact ⟨b, h1, by rw [h2]; simp [h]⟩

omit [DecidableEq α] in
/-- A walk from `x` to another node `y` gives a path in the sense of the specification, and conversely. -/
theorem pathVia_iff {R : α → α → Prop} {en : Finset α} {x y : α} :
    (∃ l, PathVia R en x y l) ↔ x ≠ y ∧ TransGen (fun a b => R a b ∧ b ∈ en) x y := by
  constructor
  · rintro ⟨l, h1, h2, h3, h4, h5, h6⟩
    match l, h4 with
    | u :: v :: t, _ =>
      simp only [List.head?_cons, Option.some.injEq] at h2
      subst h2
      have hch : (u :: v :: t).IsChain (fun a b => R a b ∧ b ∈ en) := by
        rw [List.isChain_iff_getElem] at h5 ⊢
        intro i hi
        refine ⟨h5 i hi, h6 _ ?_⟩
        simp only [List.tail_cons, List.getElem_cons_succ]
        exact List.getElem_mem _
      rw [List.isChain_cons_cons] at hch
      rw [List.getLast?_cons_cons] at h3
      refine ⟨?_, TransGen.head' hch.1 (rtg_of_path _ _ hch.2 h3)⟩
      rintro rfl
      exact (List.nodup_cons.1 h1).1 (List.mem_of_getLast? h3)
  · rintro ⟨hxy, h⟩
    obtain ⟨l, h1, h2, h3⟩ := exists_path_of_rtg h.to_reflTransGen
    refine ⟨x :: l, h1, rfl, h3, ?_, h2.imp (fun _ _ h => h.1), ?_⟩
    · cases l with
      | nil => simp only [List.getLast?_singleton, Option.some.injEq] at h3; exact absurd h3 hxy
      | cons => simp
    · intro v hv
      obtain ⟨i, hi, rfl⟩ := List.getElem_of_mem hv
      rw [List.isChain_iff_getElem] at h2
      simp only [List.tail_cons] at hi ⊢
      have := (h2 i (by simpa using hi)).2
      simpa using this

theorem findPossibleAncestors_spec (o : SetOrder α) {G : MG α} (hT : ∀ a b m, G.At a b m → m ∈ G.types)
    (hirr : ∀ a m, ¬ G.At a a m) (ds en : Finset α) :
    ∃ A, G.findPossibleAncestors o ds en = .ok A ∧
      ∀ x, x ∈ A ↔ x ∈ ds ∨ x ∈ en ∧ ∃ d ∈ ds, TransGen (fun a b => G.PossPar a b ∧ b ∈ en) x d := by
  have hinner : ∀ (d : α) (anc : Finset α) (l : List α), ∃ A,
      l.foldlM (fun (anc : Finset α) v => do
        if ← G.isPossibleAncestor o v d en then return insert v anc else return anc) anc = (.ok A : Py _) ∧
      ∀ x, x ∈ A ↔ x ∈ anc ∨ x ∈ l ∧ x ≠ d ∧ TransGen (fun a b => G.PossPar a b ∧ b ∈ en) x d := by
    intro d anc l
    induction l generalizing anc with
    | nil => exact ⟨anc, rfl, by simp⟩
    | cons v l ih =>
      obtain ⟨b, hb, hb'⟩ := isPossibleAncestor_spec o hT hirr v d en
      obtain ⟨A, hA, hA'⟩ := ih (if b then insert v anc else anc)
      refine ⟨A, ?_, fun x => ?_⟩
      · rw [foldlM_cons_ok (s' := if b then insert v anc else anc), hA]
        cases b <;> simp [hb, bind, Except.bind, pure, Except.pure]
      · rw [hA', List.mem_cons]
        cases b
        · have : ¬ (v ≠ d ∧ TransGen (fun a b => G.PossPar a b ∧ b ∈ en) v d) := fun h => by simpa using hb'.2 h
          simp only [Bool.false_eq_true, if_false]
          constructor
          · tauto
          · rintro (h | ⟨rfl | h, h2⟩)
            · exact Or.inl h
            · exact absurd h2 this
            · exact Or.inr ⟨h, h2⟩
        · have := hb'.1 rfl
          simp only [if_true, Finset.mem_insert]
          constructor
          · rintro ((rfl | h) | h)
            · exact Or.inr ⟨Or.inl rfl, this⟩
            · exact Or.inl h
            · exact Or.inr ⟨Or.inr h.1, h.2⟩
          · tauto
  obtain ⟨A, h1, h2⟩ := foldlM_ok_inv
    (f := fun anc d => (o.iter (d, anc) (en \ anc)).foldlM (fun (anc : Finset α) v => do
      if ← G.isPossibleAncestor o v d en then return insert v anc else return anc) anc)
    (I := fun (done : List α) (anc : Finset α) => ∀ x, x ∈ anc ↔ x ∈ ds ∨ x ∈ en ∧ ∃ d ∈ done,
      TransGen (fun a b => G.PossPar a b ∧ b ∈ en) x d) (o.iter () ds) [] ds (by simp) (by
      intro done d anc hl hI
      obtain ⟨A, hA, hA'⟩ := hinner d anc (o.iter (d, anc) (en \ anc))
      refine ⟨A, hA, fun x => ?_⟩
      have hd : d ∈ ds := by
        rwa [o.mem] at hl
      rw [hA', o.mem, Finset.mem_sdiff]
      by_cases hx : x ∈ anc
      · simp only [hx, true_or, true_iff]
        rcases (hI x).1 hx with h | ⟨h, e, he, h'⟩
        · exact Or.inl h
        · exact Or.inr ⟨h, e, by simp [he], h'⟩
      · simp only [hx, false_or, not_false_eq_true, and_true]
        rw [hI x] at hx
        push Not at hx
        constructor
        · rintro ⟨h1, h2, h3⟩
          exact Or.inr ⟨h1, d, by simp, h3⟩
        · rintro (h | ⟨h, e, he, h'⟩)
          · exact absurd h hx.1
          · rcases List.mem_append.1 he with he | he
            · exact absurd h' (hx.2 h e he)
            · simp only [List.mem_singleton] at he
              subst he
              refine ⟨h, ?_, h'⟩
              rintro rfl
              exact hx.1 hd)
  refine ⟨A, h1, fun x => ?_⟩
  rw [h2 x]
  simp only [List.nil_append, o.mem]

/-! ### reachability by any edges -/

omit [DecidableEq α] in
theorem Proper.nbr_iff {G : MG α} (hG : G.Proper) {x y : α} : G.Nbr none x y ↔ G.MAdj x y := by
  constructor
  · rintro ⟨m, _, h⟩
    exact Or.inr ⟨m, h⟩
  · intro h
    obtain ⟨m, h⟩ := hG.adj_iff.1 (MAdj.symm h)
    exact ⟨m, hG.type _ _ _ h, h⟩

omit [DecidableEq α] in
theorem Proper.adj_irrefl {G : MG α} (hG : G.Proper) (x : α) : ¬ G.MAdj x x := by
  rintro (⟨m, h⟩ | ⟨m, h⟩) <;> exact hG.irrefl _ _ h

theorem reachAnyFuel_spec (o : SetOrder α) {G : MG α} (hG : G.Proper) (y : α) :
    ∀ (n : Nat) (x : α) (en : Finset α), (en.erase x).card < n →
      ∃ b, reachAnyFuel o G y n x en = .ok b ∧
        (b = true ↔ x ≠ y ∧ TransGen (fun a b => G.MAdj a b ∧ b ∈ en) x y) := by
  intro n
  induction n with
  | zero => intro x en h; omega
  | succ n ih =>
    intro x en hc
    have hmem : ∀ v, v ∈ G.findAdjacentNodes x (some en) none ↔ G.MAdj x v ∧ v ∈ en := by
      intro v
      rw [mem_findAdjacent_none, hG.nbr_iff]
    have hlt : ∀ v ∈ o.iter (x, en) (G.findAdjacentNodes x (some en) none), ((en.erase x).erase v).card < n := by
      intro v hv
      rw [o.mem, hmem] at hv
      have : v ∈ en.erase x := Finset.mem_erase.2 ⟨by rintro rfl; exact hG.adj_irrefl _ hv.1, hv.2⟩
      exact lt_of_lt_of_le (Finset.card_erase_lt_of_mem this) (by omega)
    have hle : ∀ (v : α) (pool : Finset α), pool.card < n → (pool.erase v).card < n := fun v pool hp =>
      lt_of_le_of_lt (Finset.card_le_card (Finset.erase_subset _ _)) hp
    by_cases hy : y ∈ G.findAdjacentNodes x (some en) none
    · refine ⟨true, by simp [reachAnyFuel, hy], ?_⟩
      have := (hmem y).1 hy
      simp only [true_iff]
      exact ⟨by rintro rfl; exact hG.adj_irrefl _ this.1, TransGen.single this⟩
    · simp only [reachAnyFuel, hy, if_false]
      by_cases hxy : x = y
      · subst hxy
        refine ⟨false, reachAnyLoop_self (y := x) (n := n) (fun v pool hp hv => ?_) _ _ hlt (by simp), by simp⟩
        obtain ⟨b, h1, h2⟩ := ih v pool (hle v pool hp)
        rw [h1]
        cases b with
        | false => rfl
        | true => exact absurd (tg_mem (h2.1 rfl).2) hv
      · obtain ⟨b, h1, h2⟩ := reachAny_step (R := G.MAdj) hxy (n := n) (rec := reachAnyFuel o G y n) (fun v pool hp hv => by
            obtain ⟨b, h1, h2⟩ := ih v pool (hle v pool hp)
            exact ⟨b, h1, by rw [h2]; simp [hv]⟩) (vs := o.iter (x, en) (G.findAdjacentNodes x (some en) none)) (en := en)
          (fun v => by rw [o.mem, hmem]) (by rw [o.mem]; exact hy) (hG.adj_irrefl x) (by omega)
        exact ⟨b, h1, by rw [h2]; simp [hxy]⟩

theorem isReachableAny_spec (o : SetOrder α) {G : MG α} (hG : G.Proper) (x y : α) (en : Finset α) :
    ∃ b, G.isReachableAny o x y en = .ok b ∧
      (b = true ↔ x ≠ y ∧ TransGen (fun a b => G.MAdj a b ∧ b ∈ en) x y) :=
  reachAnyFuel_spec o hG y _ x en (Nat.lt_succ_of_le (Finset.card_le_card (Finset.erase_subset _ _)))

/-! ### uncovered paths -/

omit [DecidableEq α] in
theorem infix_three_cons {u v w x : α} {l : List α} (h : [u, v, w] <:+: x :: l) :
    (x = u ∧ ∃ t, l = v :: w :: t) ∨ [u, v, w] <:+: l := by
  rcases List.infix_cons_iff.1 h with ⟨t, ht⟩ | h
  · simp only [List.cons_append, List.nil_append, List.cons.injEq] at ht
    exact Or.inl ⟨ht.1.symm, t, ht.2.symm⟩
  · exact Or.inr h

omit [DecidableEq α] in
theorem infix_three_cons' {v w x : α} {t : List α} : [x, v, w] <:+: x :: v :: w :: t :=
  ⟨[], t, by simp⟩

theorem uncovFuel_spec (o : SetOrder α) {G : MG α} (hG : G.Proper) {cond : α → α → Py Bool} {C : α → α → Prop}
    (hcond : ∀ u v, u ≠ v → ∃ b, cond u v = .ok b ∧ (b = true ↔ C u v)) (hC : ∀ u v, C u v → G.MAdj u v) {y ny : α}
    (hyny : y ≠ ny) :
    ∀ (n : Nat) (x nx : α) (en : Finset α), (en \ {x, y, nx, ny}).card < n →
      x ≠ y → x ≠ nx → x ≠ ny → nx ≠ y → nx ≠ ny →
      ∃ r, uncovFuel o G cond n x y nx ny en = .ok r ∧ (∀ p, r = some p → G.UncovPath C en x y nx ny p) ∧
        (r = none → ∀ p, ¬ G.UncovPath C en x y nx ny p) := by
  intro n
  induction n with
  | zero => intro x nx en h; omega
  | succ n ih =>
    intro x nx en hc hxy hxnx hxny hnxy hnxny
    set en' := en \ {x, y, nx, ny} with hen'
    have hmem' : ∀ v, v ∈ en' ↔ v ∈ en ∧ v ≠ x ∧ v ≠ y ∧ v ≠ nx ∧ v ≠ ny := by
      intro v
      simp only [hen', Finset.mem_sdiff, Finset.mem_insert, Finset.mem_singleton, not_or]
    -- the test for a trivial path
    obtain ⟨b1, hb1, hb1'⟩ := hcond nx ny hnxny
    obtain ⟨b2, hb2, hb2'⟩ := proper_isConnected hG.type hnxy
    obtain ⟨b3, hb3, hb3'⟩ := proper_isConnected hG.type hxny
    have htriv : ∃ t, (do
        if !(← cond nx ny) then return false
        if ← G.isConnected nx y then return false
        return !(← G.isConnected x ny) : Py Bool) = .ok t ∧
        (t = true ↔ C nx ny ∧ ¬ G.MAdj nx y ∧ ¬ G.MAdj x ny) := by
      rw [← hb1', ← hb2', ← hb3', hb1, hb2, hb3]
      cases b1 <;> cases b2 <;> cases b3 <;> simp [bind, Except.bind, pure, Except.pure]
    obtain ⟨t, ht, ht'⟩ := htriv
    -- the extensions
    obtain ⟨cs, hcs, hcs'⟩ := setComp_spec (p := fun v => do
        if !(← cond nx v) then return false
        return !(← G.isConnected x v)) (P := fun v => C nx v ∧ ¬ G.MAdj x v)
      (o.iter (nx, en') (G.findAdjacentNodes nx (some en') none)) (by
        intro v hv
        rw [o.mem, mem_findAdjacent_none, hmem'] at hv
        obtain ⟨b1, hb1, hb1'⟩ := hcond nx v (Ne.symm hv.2.2.2.2.1)
        obtain ⟨b2, hb2, hb2'⟩ := proper_isConnected hG.type (i := x) (j := v) (Ne.symm hv.2.2.1)
        rw [← hb1', ← hb2', hb1, hb2]
        cases b1 <;> cases b2 <;> simp [bind, Except.bind, pure, Except.pure])
    have hcs'' : ∀ c, c ∈ cs ↔ c ∈ en' ∧ C nx c ∧ ¬ G.MAdj x c := by
      intro c
      rw [hcs', o.mem, mem_findAdjacent_none, hG.nbr_iff]
      constructor
      · rintro ⟨⟨_, h1⟩, h2⟩
        exact ⟨h1, h2⟩
      · rintro ⟨h1, h2⟩
        exact ⟨⟨hC _ _ h2.1, h1⟩, h2⟩
    have hrec : ∀ c ∈ cs, ∃ r, uncovFuel o G cond n nx y c ny en' = .ok r ∧
        (∀ p, r = some p → G.UncovPath C en' nx y c ny p) ∧ (r = none → ∀ p, ¬ G.UncovPath C en' nx y c ny p) := by
      intro c hc'
      have hce := ((hcs'' c).1 hc').1
      have h := (hmem' c).1 hce
      refine ih nx c en' ?_ hnxy (Ne.symm h.2.2.2.1) hnxny h.2.2.1 h.2.2.2.2
      have : en' \ {nx, y, c, ny} ⊆ en'.erase c := by
        intro v hv
        simp only [Finset.mem_sdiff, Finset.mem_insert, Finset.mem_singleton, not_or] at hv
        exact Finset.mem_erase.2 ⟨hv.2.2.2.1, hv.1⟩
      have h1 := Finset.card_le_card this
      have h2 := Finset.card_erase_lt_of_mem hce
      omega
    have hff : ∀ c ∈ cs, ∀ r, uncovFuel o G cond n nx y c ny en' = .ok r →
        (do
          match ← uncovFuel o G cond n nx y c ny en' with
          | some path => return some (nx :: path)
          | none => return none : Py (Option (List α))) = .ok (r.map (nx :: ·)) := by
      intro c _ r hr
      rw [hr]
      cases r <;> rfl
    obtain ⟨r, hr, hr1, hr2⟩ := forFind_spec (f := fun c => (do
          match ← uncovFuel o G cond n nx y c ny en' with
          | some path => return some (nx :: path)
          | none => return none : Py (Option (List α)))) (o.iter (nx, en', 1) cs) (by
      intro c hc'
      rw [o.mem] at hc'
      obtain ⟨r, h1, _⟩ := hrec c hc'
      exact ⟨_, hff c hc' r h1⟩)
    have hval : uncovFuel o G cond (n + 1) x y nx ny en = .ok (if t then some [nx, ny] else r) := by
      simp only [uncovFuel, if_neg hnxny]
      rw [← hen', ht]
      cases t
      · simp only [bind, Except.bind, Bool.false_eq_true, if_false]
        have := hcs
        simp only [bind, Except.bind] at this
        rw [this]
        exact hr
      · rfl
    refine ⟨_, hval, ?_, ?_⟩
    · intro p hp
      cases t with
      | true =>
        simp only [if_true, Option.some.injEq] at hp
        subst hp
        obtain ⟨h1, h2, h3⟩ := ht'.1 rfl
        refine ⟨?_, rfl, rfl, by simp, by simpa using h1, ?_⟩
        · simp only [List.cons_append, List.nil_append, List.nodup_cons, List.mem_cons, List.not_mem_nil, or_false,
            not_or, not_false_eq_true, List.nodup_nil, and_true]
          exact ⟨⟨hxnx, hxny, hxy⟩, ⟨hnxny, hnxy⟩, Ne.symm hyny⟩
        · intro u v w h
          simp only [List.cons_append, List.nil_append] at h
          rcases infix_three_cons h with ⟨rfl, s, hs⟩ | h
          · simp only [List.cons.injEq] at hs
            rw [← hs.2.1]; exact h3
          · rcases infix_three_cons h with ⟨rfl, s, hs⟩ | h
            · simp only [List.cons.injEq] at hs
              rw [← hs.2.1]; exact h2
            · have := h.length_le
              simp at this
      | false =>
        simp only [Bool.false_eq_true, if_false] at hp
        obtain ⟨c, hc1, hc2⟩ := hr1 p hp
        rw [o.mem] at hc1
        obtain ⟨r', h1, h2, _⟩ := hrec c hc1
        rw [hff c hc1 r' h1] at hc2
        cases r' with
        | none => simp at hc2
        | some p' =>
          simp only [Option.map_some, Except.ok.injEq, Option.some.injEq] at hc2
          subst hc2
          obtain ⟨g1, g2, g3, g4, g5, g6⟩ := h2 p' rfl
          obtain ⟨hce, hcC, hcx⟩ := (hcs'' c).1 hc1
          have hcn := (hmem' c).1 hce
          obtain ⟨q, rfl⟩ : ∃ q, p' = c :: q := by
            cases p' with
            | nil => simp at g2
            | cons c' q => simp only [List.head?_cons, Option.some.injEq] at g2; exact ⟨q, by rw [g2]⟩
          refine ⟨?_, rfl, ?_, ?_, ?_, ?_⟩
          · refine List.nodup_cons.2 ⟨?_, g1⟩
            simp only [List.cons_append, List.mem_cons, List.mem_append, List.not_mem_nil, or_false, not_or]
            refine ⟨hxnx, Ne.symm hcn.2.1, fun h => ?_, hxy⟩
            rcases g4 x (List.mem_cons_of_mem _ h) with h | h | h
            · exact hcn.2.1 h.symm
            · exact hxny h
            · exact ((hmem' x).1 h).2.1 rfl
          · rw [List.getLast?_cons_cons]; exact g3
          · intro v hv
            rcases List.mem_cons.1 hv with h | h
            · exact Or.inl h
            · rcases g4 v h with h | h | h
              · exact Or.inr (Or.inr (h ▸ hcn.1))
              · exact Or.inr (Or.inl h)
              · exact Or.inr (Or.inr ((hmem' v).1 h).1)
          · exact List.isChain_cons_cons.2 ⟨hcC, g5⟩
          · intro u v w h
            simp only [List.cons_append] at h
            rcases infix_three_cons h with ⟨rfl, s, hs⟩ | h
            · simp only [List.cons.injEq] at hs
              rw [← hs.2.1]; exact hcx
            · exact g6 u v w h
    · intro hn p hp
      cases t with
      | true => simp at hn
      | false =>
        simp only [Bool.false_eq_true, if_false] at hn
        obtain ⟨g1, g2, g3, g4, g5, g6⟩ := hp
        obtain ⟨q, rfl⟩ : ∃ q, p = nx :: q := by
          cases p with
          | nil => simp at g2
          | cons c' q => simp only [List.head?_cons, Option.some.injEq] at g2; exact ⟨q, by rw [g2]⟩
        cases q with
        | nil =>
          simp only [List.getLast?_singleton, Option.some.injEq] at g3
          exact hnxny g3
        | cons c q =>
          rw [List.isChain_cons_cons] at g5
          rw [List.getLast?_cons_cons] at g3
          simp only [List.cons_append] at g1 g6
          cases q with
          | nil =>
            simp only [List.getLast?_singleton, Option.some.injEq] at g3
            subst g3
            have := ht'.2 ⟨g5.1, g6 _ c _ ⟨[x], [], by simp⟩, g6 _ nx _ ⟨[], [y], by simp⟩⟩
            simp at this
          | cons e q =>
            have hnd := List.nodup_cons.1 g1
            have hnd2 := List.nodup_cons.1 hnd.2
            have hnd3 := List.nodup_cons.1 hnd2.2
            have hcny : c ≠ ny := by
              rintro rfl
              rw [List.getLast?_cons_cons] at g3
              exact hnd3.1 (List.mem_append_left _ (List.mem_of_getLast? g3))
            have hcy : c ≠ y := by
              rintro rfl
              exact hnd3.1 (by simp)
            have hcnx : c ≠ nx := by
              rintro rfl
              exact hnd2.1 (by simp)
            have hcx : c ≠ x := by
              rintro rfl
              exact hnd.1 (by simp)
            have hce : c ∈ en' := by
              rw [hmem']
              rcases g4 c (by simp) with h | h | h
              · exact absurd h hcnx
              · exact absurd h hcny
              · exact ⟨h, hcx, hcy, hcnx, hcny⟩
            have hccs : c ∈ cs := (hcs'' c).2 ⟨hce, g5.1, g6 _ nx _ ⟨[], e :: (q ++ [y]), by simp⟩⟩
            obtain ⟨r', h1, _, h3⟩ := hrec c hccs
            have h4 := hr2 hn c (by rw [o.mem]; exact hccs)
            rw [hff c hccs r' h1] at h4
            have hr'n : r' = none := by
              cases r' with
              | none => rfl
              | some p => simp at h4
            refine h3 hr'n (c :: e :: q) ⟨hnd.2, rfl, g3, ?_, g5.2, ?_⟩
            · intro v hv
              rcases g4 v (List.mem_cons_of_mem _ hv) with h | h | h
              · subst h
                exact absurd (List.mem_append_left [y] hv) hnd2.1
              · exact Or.inr (Or.inl h)
              · by_cases hvny : v = ny
                · exact Or.inr (Or.inl hvny)
                · refine Or.inr (Or.inr ((hmem' v).2 ⟨h, ?_, ?_, ?_, hvny⟩))
                  · rintro rfl
                    exact hnd.1 (List.mem_cons_of_mem _ (List.mem_append_left [y] hv))
                  · rintro rfl
                    have := List.nodup_append.1 (show ((c :: e :: q) ++ [v]).Nodup from hnd2.2)
                    exact this.2.2 v hv v (by simp) rfl
                  · rintro rfl
                    exact absurd (List.mem_append_left [y] hv) hnd2.1
            · intro u v w h
              exact g6 u v w (h.trans (List.infix_cons (List.infix_refl _)))

theorem findUncoveredPath_spec (o : SetOrder α) {G : MG α} (hG : G.Proper) {cond : α → α → Py Bool} {C : α → α → Prop}
    (hcond : ∀ u v, u ≠ v → ∃ b, cond u v = .ok b ∧ (b = true ↔ C u v)) (hC : ∀ u v, C u v → G.MAdj u v) {x y nx ny : α}
    (hd : [x, y, nx, ny].Nodup) (en : Finset α) :
    ∃ r, G.findUncoveredPath o x y nx ny en cond = .ok r ∧ (∀ p, r = some p → G.UncovPath C en x y nx ny p) ∧
      (r = none → ∀ p, ¬ G.UncovPath C en x y nx ny p) := by
  simp only [List.nodup_cons, List.mem_cons, List.not_mem_nil, or_false, not_or, not_false_eq_true, List.nodup_nil,
    and_true] at hd
  exact uncovFuel_spec o hG hcond hC hd.2.1.2 _ x nx en (Nat.lt_succ_of_le (Finset.card_le_card Finset.sdiff_subset))
    hd.1.1 hd.1.2.1 hd.1.2.2 (Ne.symm hd.2.1.1) hd.2.2

theorem findUncoveredPath_same (o : SetOrder α) (G : MG α) (cond : α → α → Py Bool) (x y nx : α) (en : Finset α) :
    G.findUncoveredPath o x y nx nx en cond = .ok (some [nx]) := by
  simp [findUncoveredPath, uncovFuel]

end MG
end Verif
