import Verif.Lemmas.PagStep

/-!
# The orientation rules of a PAG as sequences of orientation steps
-/

namespace Verif
open Relation
variable {α : Type} [DecidableEq α]

omit [DecidableEq α] in
theorem foldlM_run {β σ : Type} {f : σ → β → Py σ} {l : List β} {s : σ} {Q : σ → Prop} (I : List β → σ → Prop)
    (h0 : I [] s) (hstep : ∀ done x s, x ∈ l → I done s → ∃ s', f s x = .ok s' ∧ I (done ++ [x]) s')
    (hfin : ∀ s, I l s → Q s) : ∃ s', l.foldlM f s = .ok s' ∧ Q s' := by
  obtain ⟨s', h1, h2⟩ := foldlM_ok_inv (f := f) I l [] s h0 hstep
  exact ⟨s', h1, hfin _ h2⟩

namespace MG

omit [DecidableEq α] in
theorem liveFor_run {β σ : Type} {live : σ → Finset β} {body : σ → β → Py σ} {size : Nat} {l : List β} {s : σ}
    {Q : σ → Prop} (I : List β → σ → Prop) (hsize : ∀ done s, I done s → (live s).card = size)
    (h0 : I [] s) (hstep : ∀ done x s, x ∈ l → I done s → ∃ s', body s x = .ok s' ∧ I (done ++ [x]) s')
    (hfin : ∀ s, I l s → Q s) : ∃ s', liveFor live body size l s = .ok s' ∧ Q s' := by
  obtain ⟨s', h1, h2⟩ := liveFor_ok_inv (live := live) (body := body) (size := size) I hsize l [] s h0 hstep
  exact ⟨s', h1, hfin _ h2⟩

omit [DecidableEq α] in
theorem one_ne {G : MG α} (hG : G.Proper) {a b c : α} {m m' : Mark} (h1 : G.At a c m) (h2 : G.At b c m') (h : m ≠ m') :
    a ≠ b := by
  rintro rfl
  exact h (hG.one _ _ _ _ h1 h2)

/-! ### rule 1 -/

theorem pagRule1_run (o : SetOrder α) (sep : α → α → Py (Finset α)) {G : MG α} (hG : G.Proper) (hT : ∀ m, m ∈ G.types) :
    ∃ st, pagRule1 o G = .ok st ∧ Run (fun G H => PagStep sep G H 1) G st ∧ (st.2 = false → ¬ G.PagPattern 1) := by
  unfold pagRule1
  refine foldlM_run (fun (done : List α) (st : MG α × Bool) => Run (fun G H => PagStep sep G H 1) G st ∧
      (st.2 = false → ∀ b ∈ done, ∀ a c, G.At a b .arrow → G.At c b .circle → G.MAdj a c)) ⟨.start, by simp⟩ ?_ ?_
  · intro done b st hb ⟨hrun, hno⟩
    have hO := hrun.oriented hG hT
    have hcsne : ∀ a c, st.1.At a b .arrow → c ∈ o.iter (b, 0) (st.1.g b .circle) → a ≠ c := by
      intro a c ha hc
      rw [o.mem] at hc
      exact one_ne hO.proper ha hc (by simp)
    refine liveFor_run (fun (done' : List α) (s : MG α × Bool) => Run (fun G H => PagStep sep G H 1) G s ∧
      (s.2 = false → s.1 = st.1) ∧ (∀ x, s.1.At x b .arrow ↔ st.1.At x b .arrow) ∧
      (∀ c ∈ o.iter (b, 0) (st.1.g b .circle), s.1.At c b .circle ∨
        (s.2 = true ∧ s.1.At c b .tail ∧ s.1.At b c .arrow)) ∧
      (s.2 = false → ∀ a ∈ done', ∀ c ∈ o.iter (b, 0) (st.1.g b .circle), G.MAdj a c)) ?_ ?_ ?_ ?_
    · intro done' s h
      have : s.1.g b .arrow = st.1.g b .arrow := by ext x; exact h.2.2.1 x
      rw [this]
    · exact ⟨hrun, fun _ => rfl, fun _ => Iff.rfl, fun c hc => Or.inl ((o.mem _ _ _).1 hc), by simp⟩
    · intro done' a s ha hI
      rw [o.mem] at ha
      refine foldlM_run (fun (done'' : List α) (s : MG α × Bool) => Run (fun G H => PagStep sep G H 1) G s ∧
        (s.2 = false → s.1 = st.1) ∧ (∀ x, s.1.At x b .arrow ↔ st.1.At x b .arrow) ∧
        (∀ c ∈ o.iter (b, 0) (st.1.g b .circle), s.1.At c b .circle ∨
          (s.2 = true ∧ s.1.At c b .tail ∧ s.1.At b c .arrow)) ∧
        (s.2 = false → ∀ a ∈ done', ∀ c ∈ o.iter (b, 0) (st.1.g b .circle), G.MAdj a c) ∧
        (s.2 = false → ∀ c ∈ done'', G.MAdj a c)) ⟨hI.1, hI.2.1, hI.2.2.1, hI.2.2.2.1, hI.2.2.2.2, by simp⟩ ?_ ?_
      · intro done'' c s hc ⟨g1, g2, g3, g4, g5, g6⟩
        have hO' := g1.oriented hG hT
        have hac := hcsne a c ha hc
        obtain ⟨t, ht, ht'⟩ := hO'.isConnected hac
        by_cases hadj : G.MAdj a c
        · have : t = true := ht'.2 hadj
          subst this
          refine ⟨s, by rw [py_bind ht]; rfl, g1, g2, g3, g4, g5, ?_⟩
          intro hf x hx
          rcases List.mem_append.1 hx with hx | hx
          · exact g6 hf x hx
          · rw [List.mem_singleton.1 hx]; exact hadj
        · have : t = false := by
            cases t
            · rfl
            · exact absurd (ht'.1 rfl) hadj
          subst this
          obtain ⟨H1, e1, u1⟩ := replace_upd hO'.proper (by rw [hO'.types]; exact hT) c b .tail
          have hbc : b ≠ c := by
            rintro rfl
            rcases g4 _ hc with h | ⟨_, h, _⟩ <;> exact hO'.proper.irrefl _ _ h
          have hcb : s.1.MAdj c b := by
            rcases g4 _ hc with h | ⟨_, h, _⟩ <;> exact Or.inl ⟨_, h⟩
          have hO1 : Oriented H1 s.1 := u1.oriented hO'.proper (by
            rintro u v m ⟨rfl, rfl, rfl⟩
            exact ⟨hcb, by simp, by rw [hO'.types]; exact hT _⟩) (by rintro u v m m' ⟨_, _, rfl⟩ ⟨_, _, rfl⟩; rfl)
          obtain ⟨H2, e2, u2⟩ := replace_upd hO1.proper (by rw [hO1.types, hO'.types]; exact hT) b c .arrow
          have u : Upd s.1 H2 (fun u v m => (u = c ∧ v = b ∧ m = .tail) ∨ (u = b ∧ v = c ∧ m = .arrow)) := by
            refine (u1.trans u2).congr fun u v m => ?_
            constructor
            · rintro (h | ⟨_, h⟩)
              · exact Or.inr h
              · exact Or.inl h
            · rintro (⟨rfl, rfl, rfl⟩ | h)
              · exact Or.inr ⟨fun m' h => hbc h.1.symm, rfl, rfl, rfl⟩
              · exact Or.inl h
          refine ⟨(H2, true), by rw [py_bind ht]; simp only [Bool.false_eq_true, if_false]; rw [py_bind e1, py_bind e2]; rfl,
            ?_, by simp, ?_, ?_, by simp, by simp⟩
          · rcases g4 c hc with h | ⟨h, h', h''⟩
            · refine g1.fire (.r1 a b c ((g3 a).2 ha) h hac (fun h => hadj ((hO'.adj _ _).1 h)) u) fun _ => ⟨c, b, h, ?_⟩
              intro h2
              rcases (u.marks _ _ _).1 h2 with (h3 | h3) | h3
              · exact absurd h3.2.2 (by simp)
              · exact absurd h3.2.2 (by simp)
              · exact h3.1 .tail (Or.inl ⟨rfl, rfl, rfl⟩)
            · have := u.noop hO'.proper (by
                rintro u v m (⟨rfl, rfl, rfl⟩ | ⟨rfl, rfl, rfl⟩)
                · exact h'
                · exact h'')
              rw [this]
              exact g1.again h
          · intro x
            rw [← g3 x, u.marks]
            constructor
            · rintro ((h | h) | h)
              · exact absurd h.2.2 (by simp)
              · exact absurd h.2.1 hbc
              · exact h.2
            · intro h
              refine Or.inr ⟨?_, h⟩
              rintro m' (⟨rfl, _, _⟩ | ⟨_, h3, _⟩)
              · rcases g4 _ hc with h4 | ⟨_, h4, _⟩ <;> exact absurd (hO'.proper.one _ _ _ _ h h4) (by simp)
              · exact hbc h3
          · intro x hx
            by_cases hxc : x = c
            · subst hxc
              exact Or.inr ⟨rfl, (u.marks _ _ _).2 (Or.inl (Or.inl ⟨rfl, rfl, rfl⟩)),
                (u.marks _ _ _).2 (Or.inl (Or.inr ⟨rfl, rfl, rfl⟩))⟩
            · have hxb : x ≠ b := by
                rintro rfl
                rcases g4 _ hx with h | ⟨_, h, _⟩ <;> exact hO'.proper.irrefl _ _ h
              rcases g4 x hx with h | ⟨_, h, h'⟩
              · left
                refine (u.marks _ _ _).2 (Or.inr ⟨?_, h⟩)
                rintro m' (h | h)
                · exact hxc h.1
                · exact hxb h.1
              · right
                refine ⟨rfl, (u.marks _ _ _).2 (Or.inr ⟨?_, h⟩), (u.marks _ _ _).2 (Or.inr ⟨?_, h'⟩)⟩
                · rintro m' (h | h)
                  · exact hxc h.1
                  · exact hxb h.1
                · rintro m' (h | h)
                  · exact hxb h.2.1
                  · exact hxc h.2.1
      · rintro s ⟨g1, g2, g3, g4, g5, g6⟩
        refine ⟨g1, g2, g3, g4, ?_⟩
        intro hf x hx c hc
        rcases List.mem_append.1 hx with hx | hx
        · exact g5 hf x hx c hc
        · rw [List.mem_singleton.1 hx]; exact g6 hf c hc
    · rintro s ⟨g1, g2, g3, g4, g5⟩
      refine ⟨g1, ?_⟩
      intro hf x hx a c ha hc
      have e1 := g1.eq hf
      have e2 := g2 hf
      rcases List.mem_append.1 hx with hx | hx
      · refine hno ?_ x hx a c ha hc
        rcases hrun with h | h
        · exact h.1
        · exfalso
          have := Run.strict (st := st) (Or.inr h) hG hT h.1
          obtain ⟨u, v, h1, h2⟩ := this
          rw [← e2, e1] at h2
          exact h2 h1
      · rw [List.mem_singleton.1 hx] at ha hc
        rw [← e1, e2] at ha hc
        exact g5 hf a ((o.mem _ _ _).2 ha) c ((o.mem _ _ _).2 hc)
  · rintro st ⟨h1, h2⟩
    refine ⟨h1, fun hf => ?_⟩
    rintro ⟨a, b, c, h3, h4, h5⟩
    exact h5 (h2 hf b ((o.mem _ _ _).2 (hG.mem _ _ _ h3).2) a c h3 h4)

/-! ### loops that make orientation steps -/

/-- The result of a piece of a rule started in the state `s`: it does not fail, makes steps, keeps `L`, and if it
reports no change then it changed nothing and `N` holds. -/
def Body (S : MG α → MG α → Prop) (G0 : MG α) (L : MG α × Bool → Prop) (s : MG α × Bool) (r : Py (MG α × Bool))
    (N : Prop) : Prop :=
  ∃ s', r = .ok s' ∧ Run S G0 s' ∧ (s'.2 = false → s' = s) ∧ L s' ∧ (s'.2 = false → N)

omit [DecidableEq α] in
theorem Body.skip {S : MG α → MG α → Prop} {G0 : MG α} {L : MG α × Bool → Prop} {s : MG α × Bool} {N : Prop}
    (hr : Run S G0 s) (hL : L s) (hN : s = (G0, false) → N) : Body S G0 L s (.ok s) N :=
  ⟨s, rfl, hr, fun _ => rfl, hL, fun hf => hN (by
    have := hr.eq hf
    obtain ⟨x, y⟩ := s
    simp only at this hf
    rw [this, hf])⟩

omit [DecidableEq α] in
theorem Body.fire {S : MG α → MG α → Prop} {G0 H : MG α} {L : MG α × Bool → Prop} {s : MG α × Bool} {N : Prop}
    (hr : Run S G0 s) (hS : S s.1 H) (hst : s = (G0, false) → Strict G0 H) (hL : L (H, true)) :
    Body S G0 L s (.ok (H, true)) N :=
  ⟨(H, true), rfl, hr.fire hS (fun hf => by
    have := hr.eq hf
    obtain ⟨x, y⟩ := s
    simp only at this hf
    rw [this]
    exact hst (by rw [this, hf])), by simp, hL, by simp⟩

omit [DecidableEq α] in
theorem Body.again {S : MG α → MG α → Prop} {G0 : MG α} {L : MG α × Bool → Prop} {s : MG α × Bool} {N : Prop}
    (hr : Run S G0 s) (hf : s.2 = true) (hL : L s) : Body S G0 L s (.ok (s.1, true)) N :=
  ⟨(s.1, true), rfl, hr.again hf, by simp, by
    obtain ⟨x, y⟩ := s
    simp only at hf
    subst hf
    exact hL, by simp⟩

omit [DecidableEq α] in
theorem Body.mono {S : MG α → MG α → Prop} {G0 : MG α} {L L' : MG α × Bool → Prop} {s : MG α × Bool}
    {r : Py (MG α × Bool)} {N N' : Prop} (h : Body S G0 L s r N) (hL : ∀ s, L s → L' s)
    (hN : s = (G0, false) → N → N') : Body S G0 L' s r N' := by
  obtain ⟨s', h1, h2, h3, h4, h5⟩ := h
  refine ⟨s', h1, h2, h3, hL _ h4, fun hf => hN ?_ (h5 hf)⟩
  rw [← h3 hf]
  have := h2.eq hf
  obtain ⟨x, y⟩ := s'
  simp only at this hf
  rw [this, hf]

omit [DecidableEq α] in
theorem Body.loop {S : MG α → MG α → Prop} {G0 : MG α} {L : MG α × Bool → Prop} {β : Type} {l : List β}
    {f : MG α × Bool → β → Py (MG α × Bool)} {N : β → Prop} {s : MG α × Bool} (hr : Run S G0 s) (hL : L s)
    (h : ∀ x ∈ l, ∀ s, Run S G0 s → L s → Body S G0 L s (f s x) (N x)) :
    Body S G0 L s (l.foldlM f s) (∀ x ∈ l, N x) := by
  refine foldlM_run (fun (done : List β) (s' : MG α × Bool) => Run S G0 s' ∧ (s'.2 = false → s' = s) ∧ L s' ∧
    (s'.2 = false → ∀ x ∈ done, N x)) ⟨hr, fun _ => rfl, hL, by simp⟩ ?_ (fun _ h => h)
  intro done x s' hx ⟨h1, h2, h3, h4⟩
  obtain ⟨s'', g1, g2, g3, g4, g5⟩ := h x hx s' h1 h3
  refine ⟨s'', g1, g2, fun hf => ?_, g4, fun hf y hy => ?_⟩
  · have := g3 hf
    rw [this] at hf
    rw [this, h2 hf]
  · rcases List.mem_append.1 hy with hy | hy
    · have := g3 hf
      rw [this] at hf
      exact h4 hf y hy
    · rw [List.mem_singleton.1 hy]; exact g5 hf

omit [DecidableEq α] in
theorem Body.live {S : MG α → MG α → Prop} {G0 : MG α} {L : MG α × Bool → Prop} {β : Type} {l : List β}
    {live : MG α × Bool → Finset β} {f : MG α × Bool → β → Py (MG α × Bool)} {size : Nat} {N : β → Prop}
    {s : MG α × Bool} (hsize : ∀ s, L s → (live s).card = size) (hr : Run S G0 s) (hL : L s)
    (h : ∀ x ∈ l, ∀ s, Run S G0 s → L s → Body S G0 L s (f s x) (N x)) :
    Body S G0 L s (liveFor live f size l s) (∀ x ∈ l, N x) := by
  refine liveFor_run (fun (done : List β) (s' : MG α × Bool) => Run S G0 s' ∧ (s'.2 = false → s' = s) ∧ L s' ∧
    (s'.2 = false → ∀ x ∈ done, N x)) (fun _ s h => hsize s h.2.2.1) ⟨hr, fun _ => rfl, hL, by simp⟩ ?_ (fun _ h => h)
  intro done x s' hx ⟨h1, h2, h3, h4⟩
  obtain ⟨s'', g1, g2, g3, g4, g5⟩ := h x hx s' h1 h3
  refine ⟨s'', g1, g2, fun hf => ?_, g4, fun hf y hy => ?_⟩
  · have := g3 hf
    rw [this] at hf
    rw [this, h2 hf]
  · rcases List.mem_append.1 hy with hy | hy
    · have := g3 hf
      rw [this] at hf
      exact h4 hf y hy
    · rw [List.mem_singleton.1 hy]; exact g5 hf

/-! ### rule 2 -/

theorem single_upd {G H : MG α} {s t : α} {m : Mark} (u : Upd G H (fun u v m' => u = s ∧ v = t ∧ m' = m)) (x y : α)
    (m' : Mark) : H.At x y m' ↔ if x = s ∧ y = t then m' = m else G.At x y m' := by
  rw [u.marks]
  split_ifs with h
  · obtain ⟨rfl, rfl⟩ := h
    simp
  · constructor
    · rintro (h1 | h1)
      · exact absurd ⟨h1.1, h1.2.1⟩ h
      · exact h1.2
    · intro h1
      exact Or.inr ⟨fun m'' h2 => h ⟨h2.1, h2.2.1⟩, h1⟩

theorem single_strict {G H : MG α} {s t : α} {m : Mark} (u : Upd G H (fun u v m' => u = s ∧ v = t ∧ m' = m))
    (hm : m ≠ .circle) (h : G.At s t .circle) : Strict G H :=
  ⟨s, t, h, fun h1 => by rw [single_upd u, if_pos ⟨rfl, rfl⟩] at h1; exact hm h1.symm⟩

theorem pagRule2a_body (o : SetOrder α) (sep : α → α → Py (Finset α)) {G : MG α} (hG : G.Proper) (hT : ∀ m, m ∈ G.types)
    {s : MG α × Bool} (hr : Run (fun G H => PagStep sep G H 2) G s) :
    Body (fun G H => PagStep sep G H 2) G (fun _ => True) s (pagRule2a o s)
      (∀ a b c, G.At a b .arrow → G.At b c .arrow → G.At c b .tail → ¬ G.At a c .circle) := by
  unfold pagRule2a
  refine Body.mono (Body.loop (L := fun _ => True) (N := fun b => ∀ a c, G.At a b .arrow → G.At b c .arrow →
    G.At c b .tail → ¬ G.At a c .circle) hr trivial ?_) (fun _ h => h) ?_
  · intro b _ st hrun _
    have hP := (hrun.oriented hG hT).proper
    refine Body.mono (Body.live (L := fun s => s.1.g b = st.1.g b) (N := fun c => G.At b c .arrow → ∀ a, G.At a b .arrow →
      ¬ G.At a c .circle) ?_ hrun rfl ?_) (fun _ _ => trivial) ?_
    · intro s hs
      rw [hs]
    · intro c hc s1 hr1 hL1
      rw [o.mem] at hc
      have hO1 := hr1.oriented hG hT
      have hbc : b ≠ c := by
        rintro rfl
        exact hP.irrefl _ _ hc
      by_cases hb : b ∉ s1.1.g c .arrow
      · rw [if_pos hb]
        refine Body.skip hr1 hL1 ?_
        rintro rfl h
        exact absurd h hb
      · rw [if_neg hb]
        refine Body.mono (Body.live (L := fun s => s.1.g b = st.1.g b ∧ s.1.At b c .arrow) (N := fun a => ¬ G.At a c .circle) ?_ hr1
          ⟨hL1, not_not.1 hb⟩ ?_) (fun _ h => h.1) ?_
        · intro s hs
          rw [hs.1, hL1]
        · intro a ha s2 hr2 ⟨hL2, hL2'⟩
          rw [o.mem, hL1] at ha
          have hO2 := hr2.oriented hG hT
          split_ifs with hac
          · obtain ⟨H, e, u⟩ := replace_upd hO2.proper (by rw [hO2.types]; exact hT) a c .arrow
            rw [py_bind e]
            refine Body.fire hr2 (.r2 a b c ?_ hL2' (Or.inl ?_) hac u) ?_ ⟨?_, ?_⟩
            · rw [At, hL2]; exact ha
            · rw [At, hL2]; exact hc
            · rintro rfl
              exact single_strict u (by simp) hac
            · funext m
              ext x
              change H.At x b m ↔ _
              rw [single_upd u, if_neg (fun h => hbc h.2), At, hL2]
            · change H.At b c .arrow
              rw [single_upd u]
              split_ifs
              · rfl
              · exact hL2'
          · refine Body.skip hr2 ⟨hL2, hL2'⟩ ?_
            rintro rfl
            exact hac
        · rintro rfl h1 h2 a ha
          exact h1 a ((o.mem _ _ _).2 ha)
    · rintro rfl h1 a c ha hbc hcb
      exact h1 c ((o.mem _ _ _).2 hcb) hbc a ha
  · rintro rfl h1 a b c ha hbc hcb
    exact h1 b ((o.mem _ _ _).2 (hG.mem _ _ _ ha).2) a c ha hbc hcb

theorem pagRule2b_body (o : SetOrder α) (sep : α → α → Py (Finset α)) {G : MG α} (hG : G.Proper) (hT : ∀ m, m ∈ G.types)
    {s : MG α × Bool} (hr : Run (fun G H => PagStep sep G H 2) G s) :
    Body (fun G H => PagStep sep G H 2) G (fun _ => True) s (pagRule2b o s)
      (∀ a b c, G.At a b .arrow → G.At b c .arrow → G.At b a .tail → ¬ G.At a c .circle) := by
  unfold pagRule2b
  refine Body.mono (Body.loop (L := fun _ => True) (N := fun c => ∀ a b, G.At a b .arrow → G.At b c .arrow →
    G.At b a .tail → ¬ G.At a c .circle) hr trivial ?_) (fun _ h => h) ?_
  · intro c _ st hrun _
    have hP := (hrun.oriented hG hT).proper
    refine Body.mono (Body.loop (L := fun s => ∀ x, st.1.At x c .arrow → s.1.At x c .arrow)
      (N := fun b => ∀ a, G.At a b .arrow → G.At b a .tail → ¬ G.At a c .circle) hrun (fun _ h => h) ?_)
      (fun _ _ => trivial) ?_
    · intro b hb s1 hr1 hL1
      rw [o.mem] at hb
      have hbc : b ≠ c := by
        rintro rfl
        exact hP.irrefl _ _ hb
      refine Body.mono (Body.live (L := fun s => s.1.g b = s1.1.g b ∧ ∀ x, st.1.At x c .arrow → s.1.At x c .arrow)
        (N := fun a => G.At b a .tail → ¬ G.At a c .circle) ?_ hr1 ⟨rfl, hL1⟩ ?_) (fun _ h => h.2) ?_
      · intro s hs
        rw [hs.1]
      · intro a ha s2 hr2 ⟨hL2, hL2'⟩
        rw [o.mem] at ha
        have hO2 := hr2.oriented hG hT
        by_cases h1 : b ∉ s2.1.g a .tail
        · rw [if_pos h1]
          refine Body.skip hr2 ⟨hL2, hL2'⟩ ?_
          rintro rfl h
          exact absurd h h1
        rw [if_neg h1]
        split_ifs with hac
        · obtain ⟨H, e, u⟩ := replace_upd hO2.proper (by rw [hO2.types]; exact hT) a c .arrow
          rw [py_bind e]
          refine Body.fire hr2 (.r2 a b c ?_ (hL2' _ hb) (Or.inr (not_not.1 h1)) hac u) ?_ ⟨?_, ?_⟩
          · rw [At, hL2]; exact ha
          · rintro rfl
            exact single_strict u (by simp) hac
          · funext m
            ext x
            change H.At x b m ↔ _
            rw [single_upd u, if_neg (fun h => hbc h.2), At, hL2]
          · intro x hx
            change H.At x c .arrow
            rw [single_upd u]
            split_ifs
            · rfl
            · exact hL2' x hx
        · refine Body.skip hr2 ⟨hL2, hL2'⟩ ?_
          rintro rfl _
          exact hac
      · rintro rfl h1 a ha
        exact h1 a ((o.mem _ _ _).2 ha)
    · rintro rfl h1 a b ha hbc hcb
      exact h1 b ((o.mem _ _ _).2 hbc) a ha hcb
  · rintro rfl h1 a b c ha hbc hcb
    exact h1 c ((o.mem _ _ _).2 (hG.mem _ _ _ hbc).2) a b ha hbc hcb

theorem pagRule2_run (o : SetOrder α) (sep : α → α → Py (Finset α)) {G : MG α} (hG : G.Proper) (hT : ∀ m, m ∈ G.types) :
    ∃ st, pagRule2 o G = .ok st ∧ Run (fun G H => PagStep sep G H 2) G st ∧ (st.2 = false → ¬ G.PagPattern 2) := by
  obtain ⟨s1, h1, h2, h3, _, h4⟩ := pagRule2a_body o sep hG hT (s := (G, false)) .start
  obtain ⟨s2, g1, g2, g3, _, g4⟩ := pagRule2b_body o sep hG hT h2
  refine ⟨s2, by unfold pagRule2; rw [py_bind h1]; exact g1, g2, fun hf => ?_⟩
  have hf1 : s1.2 = false := by rw [← g3 hf]; exact hf
  rintro ⟨a, b, c, k1, k2, k3 | k3, k4⟩
  · exact h4 hf1 a b c k1 k2 k3 k4
  · exact g4 hf a b c k1 k2 k3 k4

/-! ### rule 3 -/

theorem pagRule3_run (o : SetOrder α) (sep : α → α → Py (Finset α)) {G : MG α} (hG : G.Proper) (hT : ∀ m, m ∈ G.types) :
    ∃ st, pagRule3 o G = .ok st ∧ Run (fun G H => PagStep sep G H 3) G st ∧ (st.2 = false → ¬ G.PagPattern 3) := by
  have key : Body (fun G H => PagStep sep G H 3) G (fun _ => True) (G, false) (pagRule3 o G) (¬ G.PagPattern 3) := by
    unfold pagRule3
    refine Body.mono (Body.loop (L := fun _ => True) (N := fun b => ∀ d, G.At d b .circle → ∀ a c, a ≠ c → G.At a b .arrow →
      G.At c b .arrow → G.At a d .circle → G.At c d .circle → G.MAdj a c) .start trivial ?_) (fun _ h => h) ?_
    · intro b _ st hrun _
      have hP := (hrun.oriented hG hT).proper
      refine Body.mono (Body.loop (L := fun s => ∀ x, st.1.At x b .circle → s.1.At x b .circle ∨
        (s.2 = true ∧ s.1.At x b .arrow)) (N := fun d => ∀ a c, a ≠ c → G.At a b .arrow →
        G.At c b .arrow → G.At a d .circle → G.At c d .circle → G.MAdj a c) hrun (fun _ h => Or.inl h) ?_)
        (fun _ _ => trivial) ?_
      · intro d hd s1 hr1 hL1
        rw [o.mem] at hd
        have hP1 := (hr1.oriented hG hT).proper
        refine Body.mono (Body.loop (L := fun s => (∀ x, st.1.At x b .circle → s.1.At x b .circle ∨
          (s.2 = true ∧ s.1.At x b .arrow)) ∧ ∀ x, s1.1.At x b .arrow → s1.1.At x d .circle →
            s.1.At x b .arrow ∧ s.1.At x d .circle) (N := fun ac => G.MAdj ac.1 ac.2) hr1 ⟨hL1, fun _ h h' => ⟨h, h'⟩⟩ ?_)
          (fun _ h => h.1) ?_
        · rintro ⟨a, c⟩ hac s2 hr2 ⟨hL2, hL3⟩
          have ha := mem_pairs_left hac
          have hc := mem_pairs_right hac
          have hne := mem_pairs_ne (o.nodup _ _) hac
          simp only [o.mem, Finset.mem_inter] at ha hc
          simp only at hne ⊢
          have hO2 := hr2.oriented hG hT
          obtain ⟨t, ht, ht'⟩ := hO2.isConnected hne
          rw [py_bind ht]
          cases t with
          | true =>
            refine Body.skip hr2 ⟨hL2, hL3⟩ ?_
            rintro _
            exact ht'.1 rfl
          | false =>
            have hadj : ¬ G.MAdj a c := fun h => by simpa using ht'.2 h
            obtain ⟨H, e, u⟩ := replace_upd hO2.proper (by rw [hO2.types]; exact hT) d b .arrow
            simp only [Bool.false_eq_true, if_false]
            rw [py_bind e]
            have ka := hL3 a ha.1 ha.2
            have kc := hL3 c hc.1 hc.2
            have hdb : s2.1.MAdj d b := by
              rcases hL2 d hd with h | h
              · exact Or.inl ⟨_, h⟩
              · exact Or.inl ⟨_, h.2⟩
            refine Body.fire hr2 (.r3 a b c d hne ka.1 kc.1 (fun h => hadj ((hO2.adj _ _).1 h)) ka.2 kc.2 hdb u) ?_ ⟨?_, ?_⟩
            · rintro rfl
              rcases hL2 d hd with h | h
              · exact single_strict u (by simp) h
              · exact absurd h.1 (by simp)
            · intro x hx
              by_cases hxd : x = d
              · subst hxd
                exact Or.inr ⟨rfl, (single_upd u _ _ _).2 (by simp)⟩
              · rcases hL2 x hx with h | h
                · exact Or.inl ((single_upd u _ _ _).2 (by rw [if_neg (fun h => hxd h.1)]; exact h))
                · exact Or.inr ⟨rfl, (single_upd u _ _ _).2 (by rw [if_neg (fun h => hxd h.1)]; exact h.2)⟩
            · intro x h1 h2
              obtain ⟨h3, h4⟩ := hL3 x h1 h2
              constructor
              · change H.At x b .arrow
                rw [single_upd u]
                split_ifs
                · rfl
                · exact h3
              · change H.At x d .circle
                rw [single_upd u, if_neg (fun h => hO2.proper.ne hdb h.2)]
                exact h4
        · rintro rfl h1 a c hac ha hc had hcd
          have hm : ∀ x, G.At x b .arrow → G.At x d .circle → x ∈ o.iter (b, d) (G.g b .arrow ∩ G.g d .circle) := by
            intro x hx hx'
            rw [o.mem, Finset.mem_inter]
            exact ⟨hx, hx'⟩
          rcases mem_pairs_or (hm a ha had) (hm c hc hcd) hac with h | h
          · exact h1 _ h
          · exact (h1 _ h).symm
      · rintro rfl h1 d hd
        exact h1 d ((o.mem _ _ _).2 hd)
    · rintro _ h1 ⟨a, b, c, d, k1, k2, k3, k4, k5, k6, k7⟩
      exact k4 (h1 b ((o.mem _ _ _).2 (hG.mem _ _ _ k2).2) d k7 a c k1 k2 k3 k5 k6)
  obtain ⟨s', h1, h2, _, _, h3⟩ := key
  exact ⟨s', h1, h2, h3⟩

end MG
end Verif
