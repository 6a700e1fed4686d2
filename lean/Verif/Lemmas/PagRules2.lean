import Verif.Lemmas.PagRules

/-!
# The orientation rules of a PAG as sequences of orientation steps: rules 4, 6, 7, 8
-/

namespace Verif
open Relation

namespace MG

theorem replace_or {α : Type} [DecidableEq α] {G : MG α} (hG : G.Proper) (hT : ∀ m, m ∈ G.types) {s t : α} {m : Mark}
    (hst : G.MAdj s t) (hm : m ≠ .circle) :
    ∃ H, G.replaceEdgeMark s t m = .ok H ∧ Upd G H (fun u v m' => u = s ∧ v = t ∧ m' = m) ∧ Oriented H G := by
  obtain ⟨H, h1, h2⟩ := replace_upd hG hT s t m
  exact ⟨H, h1, h2, h2.oriented hG (by rintro u v m ⟨rfl, rfl, rfl⟩; exact ⟨hst, hm, hT _⟩)
    (by rintro u v m m' ⟨_, _, rfl⟩ ⟨_, _, rfl⟩; rfl)⟩

theorem isEdge_ok {α : Type} [DecidableEq α] {G : MG α} (hT : ∀ m, m ∈ G.types) (i j : α) (mi mj : Mark) :
    ∃ b, G.isEdge i j mi mj = .ok b ∧ (b = true ↔ G.At j i mi ∧ G.At i j mj) :=
  ⟨_, if_pos ⟨hT _, hT _⟩, by simp only [decide_eq_true_eq, At]⟩

/-! ### rule 4 -/
section
variable {α : Type} [LinearOrder α]

theorem pagRule4Orient_spec {sep : SepSet α} {G : MG α} (hG : G.Proper) (hT : ∀ m, m ∈ G.types) {a b c d : α}
    (hcb : G.MAdj c b) (hac : G.Par a c) (hba : G.At b a .arrow) {S : Finset α} (hS : sep.get d c = .ok S) :
    ∃ H, pagRule4Orient sep G a b c d = .ok H ∧
      (b ∈ S → Upd G H (fun u v m => (u = b ∧ v = c ∧ m = .arrow) ∨ (u = c ∧ v = b ∧ m = .tail))) ∧
      (b ∉ S → Upd G H (fun u v m => ((u = b ∧ (v = a ∨ v = c)) ∨ ((u = a ∨ u = c) ∧ v = b)) ∧ m = .arrow)) := by
  have hcb' : c ≠ b := hG.ne hcb
  have hba' : b ≠ a := hG.ne (Or.inl ⟨_, hba⟩)
  have hac' : a ≠ c := hG.ne (Or.inl ⟨_, hac.1⟩)
  unfold pagRule4Orient
  rw [py_bind hS]
  by_cases hb : b ∈ S
  · obtain ⟨H1, e1, u1, o1⟩ := replace_or hG hT (m := .arrow) hcb.symm (by simp)
    obtain ⟨H2, e2, u2, o2⟩ := replace_or o1.proper (by rw [o1.types]; exact hT) (m := .tail) ((o1.adj _ _).2 hcb)
      (by simp)
    refine ⟨H2, by rw [if_pos hb, py_bind e1]; exact e2, fun _ => ?_, fun h => absurd hb h⟩
    refine (u1.trans u2).congr fun u v m => ?_
    constructor
    · rintro (h | ⟨_, h⟩)
      · exact Or.inr h
      · exact Or.inl h
    · rintro (⟨rfl, rfl, rfl⟩ | h)
      · exact Or.inr ⟨fun m' h => hcb' h.1.symm, rfl, rfl, rfl⟩
      · exact Or.inl h
  · obtain ⟨H1, e1, u1, o1⟩ := replace_or hG hT (m := .arrow) (s := b) (t := a) (Or.inl ⟨_, hba⟩) (by simp)
    obtain ⟨H2, e2, u2, o2⟩ := replace_or o1.proper (by rw [o1.types]; exact hT) (m := .arrow) (s := a) (t := b)
      ((o1.adj _ _).2 (Or.inr ⟨_, hba⟩)) (by simp)
    have o2 := o1.trans o2
    obtain ⟨H3, e3, u3, o3⟩ := replace_or o2.proper (by rw [o2.types]; exact hT) (m := .arrow) (s := b) (t := c)
      ((o2.adj _ _).2 hcb.symm) (by simp)
    have o3 := o2.trans o3
    obtain ⟨H4, e4, u4, o4⟩ := replace_or o3.proper (by rw [o3.types]; exact hT) (m := .arrow) (s := c) (t := b)
      ((o3.adj _ _).2 hcb) (by simp)
    refine ⟨H4, by rw [if_neg hb, py_bind e1, py_bind e2, py_bind e3]; exact e4, fun h => absurd h hb, fun _ => ?_⟩
    refine (((u1.trans u2).trans u3).trans u4).congr fun u v m => ?_
    constructor
    · rintro (⟨rfl, rfl, rfl⟩ | ⟨_, ⟨rfl, rfl, rfl⟩ | ⟨_, ⟨rfl, rfl, rfl⟩ | ⟨_, rfl, rfl, rfl⟩⟩⟩)
      · exact ⟨Or.inr ⟨Or.inr rfl, rfl⟩, rfl⟩
      · exact ⟨Or.inl ⟨rfl, Or.inr rfl⟩, rfl⟩
      · exact ⟨Or.inr ⟨Or.inl rfl, rfl⟩, rfl⟩
      · exact ⟨Or.inl ⟨rfl, Or.inl rfl⟩, rfl⟩
    · rintro ⟨⟨rfl, rfl | rfl⟩ | ⟨rfl | rfl, rfl⟩, rfl⟩
      · exact Or.inr ⟨fun m' h => hba' h.2.1.symm, Or.inr ⟨fun m' h => hac' h.2.1, Or.inr
          ⟨fun m' h => hba' h.1, rfl, rfl, rfl⟩⟩⟩
      · exact Or.inr ⟨fun m' h => hcb' h.1.symm, Or.inl ⟨rfl, rfl, rfl⟩⟩
      · exact Or.inr ⟨fun m' h => hac' h.1, Or.inr ⟨fun m' h => hba' h.1.symm, Or.inl ⟨rfl, rfl, rfl⟩⟩⟩
      · exact Or.inl ⟨rfl, rfl, rfl⟩

theorem pagRule4_run (o : SetOrder α) (sep : SepSet α) {G : MG α} (hG : G.Proper) (hT : ∀ m, m ∈ G.types)
    (hsep : ∀ i ∈ G.nodes, ∀ j ∈ G.nodes, i ≠ j → ∃ S, sep.get i j = .ok S) :
    ∃ st, pagRule4 o sep G = .ok st ∧ Run (fun G H => PagStep sep.get G H 4) G st ∧
      (st.2 = false → ¬ G.PagPattern 4) := by
  have key : Body (fun G H => PagStep sep.get G H 4) G (fun _ => True) (G, false) (pagRule4 o sep G)
      (¬ G.PagPattern 4) := by
    unfold pagRule4
    refine Body.mono (Body.loop (L := fun _ => True) (N := fun b => ∀ c, G.At c b .circle → ∀ a, G.Par a c →
      G.At b a .arrow → ∀ d l, ¬ G.DiscPath a b c d l) .start trivial ?_) (fun _ h => h) ?_
    · intro b _ st hrun _
      refine Body.mono (Body.loop (L := fun s => s.2 = false → s.1 = st.1) (N := fun c => ∀ a, G.Par a c →
        G.At b a .arrow → ∀ d l, ¬ G.DiscPath a b c d l) hrun (fun _ => rfl) ?_) (fun _ _ => trivial) ?_
      · intro c hc s1 hr1 hL1
        rw [o.mem] at hc
        have hO1 := hr1.oriented hG hT
        have hcb : G.MAdj c b := ((hrun.oriented hG hT).adj _ _).1 (Or.inl ⟨_, hc⟩)
        refine Body.mono (Body.loop (L := fun s => (s.2 = false → s.1 = st.1) ∧ ∀ x, x ≠ b → s1.1.Par x c → s.1.Par x c)
          (N := fun a => G.At b a .arrow → ∀ d l, ¬ G.DiscPath a b c d l) hr1 ⟨hL1, fun _ _ h => h⟩ ?_) (fun _ h => h.1) ?_
        · intro a ha s2 hr2 ⟨hL2, hL3⟩
          have hO2 := hr2.oriented hG hT
          split_ifs with hb
          · have hab : a ≠ b := hO2.proper.ne (Or.inr ⟨_, hb⟩)
            have hpar : s2.1.Par a c := by
              refine hL3 a hab ?_
              rw [o.mem, findParents, Finset.mem_filter] at ha
              exact ha
            have hac : a ≠ c := hO2.proper.ne (Or.inl ⟨_, hpar.1⟩)
            obtain ⟨r, h1, h2, h3⟩ := findDisc_src o hO2.proper a b c
            rw [py_bind h1]
            cases r with
            | none =>
              refine Body.skip hr2 ⟨hL2, hL3⟩ ?_
              rintro rfl _ d l hl
              exact h3 rfl d ((dsrc_iff hG hab hac).2 ⟨l, hl⟩)
            | some d =>
              obtain ⟨l, hl⟩ := (dsrc_iff hO2.proper hab hac).1 (h2 d rfl)
              have hd : d ∈ l := List.mem_of_getLast? hl.last
              have hdc : d ≠ c := fun h => hl.notC (h ▸ hd)
              have hdn : d ∈ G.nodes := by
                have hadj : ∃ u, s2.1.At d u .arrow := by
                  obtain ⟨l', hl'⟩ : ∃ l', l = l' ++ [d] := by
                    have := hl.last
                    rw [List.getLast?_eq_some_iff] at this
                    exact this
                  have hlong := hl.long
                  rw [hl'] at hlong
                  simp only [List.length_append, List.length_cons, List.length_nil] at hlong
                  rcases List.eq_nil_or_concat l' with h | ⟨l'', u, h⟩
                  · rw [h] at hlong; simp at hlong
                  · refine ⟨u, hl.heads u d ⟨l'', [], ?_⟩⟩
                    rw [hl', h]; simp
                obtain ⟨u, hu⟩ := hadj
                rw [← hO2.nodes]
                exact (hO2.proper.mem _ _ _ hu).1
              have hcn : c ∈ G.nodes := by
                rw [← hO2.nodes]
                exact (hO2.proper.mem _ _ _ hpar.1).2
              obtain ⟨S, hS⟩ := hsep d hdn c hcn hdc
              have hcb2 : s2.1.MAdj c b := (hO2.adj _ _).2 hcb
              have hcbne : c ≠ b := hO2.proper.ne hcb2
              obtain ⟨H, e, u1, u2⟩ := pagRule4Orient_spec (sep := sep) hO2.proper (by rw [hO2.types]; exact hT) hcb2 hpar hb hS
              simp only
              rw [py_bind e]
              by_cases hbS : b ∈ S
              · have u := u1 hbS
                refine Body.fire hr2 (.r4in a b c d l S hcb2 hpar hb hl hS hbS u) ?_ ⟨by simp, ?_⟩
                · rintro rfl
                  refine ⟨c, b, by rw [← hL2 rfl] at hc; exact hc, fun h => ?_⟩
                  rcases (u.marks _ _ _).1 h with h | h
                  · rcases h with h | h
                    · exact absurd h.2.2 (by simp)
                    · exact absurd h.2.2 (by simp)
                  · exact h.1 .tail (Or.inr ⟨rfl, rfl, rfl⟩)
                · intro x hxb hx
                  have hx' := hL3 x hxb hx
                  exact ⟨(u.marks _ _ _).2 (Or.inr ⟨by rintro m' (h | h) <;> [exact hxb h.1; exact hcbne h.2.1], hx'.1⟩),
                    (u.marks _ _ _).2 (Or.inr ⟨by rintro m' (h | h) <;> [exact hcbne h.1; exact hxb h.2.1], hx'.2⟩)⟩
              · have u := u2 hbS
                refine Body.fire hr2 (.r4out a b c d l S hcb2 hpar hb hl hS hbS u) ?_ ⟨by simp, ?_⟩
                · rintro rfl
                  refine ⟨c, b, by rw [← hL2 rfl] at hc; exact hc, fun h => ?_⟩
                  rcases (u.marks _ _ _).1 h with h | h
                  · exact absurd h.2 (by simp)
                  · exact h.1 .arrow ⟨Or.inr ⟨Or.inr rfl, rfl⟩, rfl⟩
                · intro x hxb hx
                  have hx' := hL3 x hxb hx
                  exact ⟨(u.marks _ _ _).2 (Or.inr ⟨by rintro m' ⟨h | h, _⟩ <;> [exact hxb h.1; exact hcbne h.2], hx'.1⟩),
                    (u.marks _ _ _).2 (Or.inr ⟨by rintro m' ⟨h | h, _⟩ <;> [exact hcbne h.1; exact hxb h.2], hx'.2⟩)⟩
          · refine Body.skip hr2 ⟨hL2, hL3⟩ ?_
            rintro rfl h
            exact absurd h hb
        · rintro rfl h1 a ha
          refine h1 a ?_
          rw [o.mem, findParents, Finset.mem_filter]
          exact ha
      · rintro rfl h1 c hc
        exact h1 c ((o.mem _ _ _).2 hc)
    · rintro _ h1 ⟨a, b, c, d, l, k1, k2, k3, k4⟩
      exact h1 b ((o.mem _ _ _).2 (hG.mem _ _ _ k1).2) c k1 a k2 k3 d l k4
  obtain ⟨s', h1, h2, _, _, h3⟩ := key
  exact ⟨s', h1, h2, h3⟩
end

/-! ### rules 6, 7, 8 -/
section
variable {α : Type} [DecidableEq α]

theorem pagRule6_run (o : SetOrder α) (sep : α → α → Py (Finset α)) {G : MG α} (hG : G.Proper) (hT : ∀ m, m ∈ G.types) :
    ∃ st, pagRule6 o G = .ok st ∧ Run (fun G H => PagStep sep G H 6) G st ∧ (st.2 = false → ¬ G.PagPattern 6) := by
  have key : Body (fun G H => PagStep sep G H 6) G (fun _ => True) (G, false) (pagRule6 o G) (¬ G.PagPattern 6) := by
    unfold pagRule6
    refine Body.mono (Body.loop (L := fun _ => True) (N := fun b => ∀ a, G.At a b .tail → G.At b a .tail →
      ∀ c, ¬ G.At c b .circle) .start trivial ?_) (fun _ h => h) ?_
    · intro b _ st hrun _
      have hP := (hrun.oriented hG hT).proper
      refine Body.mono (Body.loop (L := fun s => (s.2 = false → s.1 = st.1) ∧ (∀ x, st.1.At x b .tail → st.1.At b x .tail →
        s.1.At x b .tail ∧ s.1.At b x .tail) ∧ ∀ x, st.1.At x b .circle → ¬ s.1.At x b .arrow) (N := fun _ => ∀ c, ¬ G.At c b .circle) hrun
        ⟨fun _ => rfl, fun _ h h' => ⟨h, h'⟩, fun _ h h2 => absurd (hP.one _ _ _ _ h h2) (by simp)⟩ ?_) (fun _ _ => trivial) ?_
      · intro a ha s1 hr1 hL1
        rw [o.mem, Finset.mem_filter] at ha
        refine Body.mono (Body.loop (L := fun s => (s.2 = false → s.1 = st.1) ∧ (∀ x, st.1.At x b .tail → st.1.At b x .tail →
          s.1.At x b .tail ∧ s.1.At b x .tail) ∧ ∀ x, st.1.At x b .circle → ¬ s.1.At x b .arrow) (N := fun _ => False) hr1 hL1 ?_) (fun _ h => h) ?_
        · intro c hc s2 hr2 hL2
          rw [o.mem] at hc
          have hO2 := hr2.oriented hG hT
          have hcb : s2.1.MAdj c b := (hO2.adj _ _).2 (((hrun.oriented hG hT).adj _ _).1 (Or.inl ⟨_, hc⟩))
          obtain ⟨H, e, u⟩ := replace_upd hO2.proper (by rw [hO2.types]; exact hT) c b .tail
          rw [py_bind e]
          have hab := hL2.2.1 a ha.1 ha.2
          refine Body.fire hr2 (.r6 a b c hab.1 hab.2 hcb (hL2.2.2 c hc) u) ?_ ⟨by simp, fun x h h' => ⟨?_, ?_⟩, fun x h h2 => ?_⟩
          · rintro rfl
            exact single_strict u (by simp) (by rw [← hL2.1 rfl] at hc; exact hc)
          · refine (single_upd u _ _ _).2 ?_
            split_ifs
            · rfl
            · exact (hL2.2.1 x h h').1
          · refine (single_upd u _ _ _).2 ?_
            rw [if_neg (fun h => hO2.proper.ne hcb h.1.symm)]
            exact (hL2.2.1 x h h').2
          · have h2 := (single_upd u _ _ _).1 h2
            split_ifs at h2
            exact hL2.2.2 x h h2
        · rintro rfl h1 c hc
          have e : G = st.1 := hL1.1 rfl
          rw [e] at hc
          exact h1 c ((o.mem _ _ _).2 hc)
      · rintro rfl h1 a ha hb
        refine h1 a ?_
        rw [o.mem, Finset.mem_filter]
        exact ⟨ha, hb⟩
    · rintro _ h1 ⟨a, b, c, k1, k2, k3⟩
      exact h1 b ((o.mem _ _ _).2 (hG.mem _ _ _ k1).2) a k1 k2 c k3
  obtain ⟨s', h1, h2, _, _, h3⟩ := key
  exact ⟨s', h1, h2, h3⟩

theorem pagRule7_run (o : SetOrder α) (sep : α → α → Py (Finset α)) {G : MG α} (hG : G.Proper) (hT : ∀ m, m ∈ G.types) :
    ∃ st, pagRule7 o G = .ok st ∧ Run (fun G H => PagStep sep G H 7) G st ∧ (st.2 = false → ¬ G.PagPattern 7) := by
  have key : Body (fun G H => PagStep sep G H 7) G (fun _ => True) (G, false) (pagRule7 o G) (¬ G.PagPattern 7) := by
    unfold pagRule7
    refine Body.mono (Body.loop (L := fun _ => True) (N := fun b => ∀ a, G.At a b .circle → G.At b a .tail →
      ∀ c, G.At c b .circle → a ≠ c → G.MAdj a c) .start trivial ?_) (fun _ h => h) ?_
    · intro b _ st hrun _
      have hP := (hrun.oriented hG hT).proper
      refine Body.mono (Body.loop (L := fun s => (s.2 = false → s.1 = st.1) ∧ (∀ x, st.1.At x b .circle → ¬ s.1.At x b .arrow) ∧
        ∀ x, st.1.At x b .circle → st.1.At b x .tail → s.1.At b x .tail) (N := fun a => ∀ c, G.At c b .circle → a ≠ c → G.MAdj a c) hrun
        ⟨fun _ => rfl, fun _ h h2 => absurd (hP.one _ _ _ _ h h2) (by simp), fun _ _ h' => h'⟩ ?_) (fun _ _ => trivial) ?_
      · intro a ha s1 hr1 hL1
        rw [o.mem, Finset.mem_filter] at ha
        refine Body.mono (Body.loop (L := fun s => (s.2 = false → s.1 = st.1) ∧ (∀ x, st.1.At x b .circle → ¬ s.1.At x b .arrow) ∧
          ∀ x, st.1.At x b .circle → st.1.At b x .tail → s.1.At b x .tail) (N := fun c => a ≠ c → G.MAdj a c) hr1 hL1 ?_) (fun _ h => h) ?_
        · intro c hc s2 hr2 hL2
          rw [o.mem] at hc
          have hO2 := hr2.oriented hG hT
          have hcb : s2.1.MAdj c b := (hO2.adj _ _).2 (((hrun.oriented hG hT).adj _ _).1 (Or.inl ⟨_, hc⟩))
          split_ifs with hac
          · exact Body.skip hr2 hL2 (fun _ h => absurd hac h)
          obtain ⟨t, ht, ht'⟩ := hO2.isConnected hac
          rw [py_bind ht]
          cases t with
          | true => exact Body.skip hr2 hL2 (fun _ _ => ht'.1 rfl)
          | false =>
            have hadj : ¬ G.MAdj a c := fun h => by simpa using ht'.2 h
            simp only [Bool.false_eq_true, if_false]
            obtain ⟨H, e, u⟩ := replace_upd hO2.proper (by rw [hO2.types]; exact hT) c b .tail
            rw [py_bind e]
            refine Body.fire hr2 (.r7 a b c hac (hL2.2.2 a ha.1 ha.2) (hL2.2.1 a ha.1) hcb (fun h => hadj ((hO2.adj _ _).1 h)) (hL2.2.1 c hc) u) ?_
              ⟨by simp, fun x h h2 => ?_, fun x h h' => ?_⟩
            · rintro rfl
              exact single_strict u (by simp) (by rw [← hL2.1 rfl] at hc; exact hc)
            · have h2 := (single_upd u _ _ _).1 h2
              split_ifs at h2
              exact hL2.2.1 x h h2
            · refine (single_upd u _ _ _).2 ?_
              rw [if_neg (fun h => hO2.proper.ne hcb h.1.symm)]
              exact hL2.2.2 x h h'
        · rintro rfl h1 c hc
          have e : G = st.1 := hL1.1 rfl
          rw [e] at hc
          exact h1 c ((o.mem _ _ _).2 hc)
      · rintro rfl h1 a ha hb
        refine h1 a ?_
        rw [o.mem, Finset.mem_filter]
        exact ⟨ha, hb⟩
    · rintro _ h1 ⟨a, b, c, k0, k1, k2, k3, k4⟩
      exact k4 (h1 b ((o.mem _ _ _).2 (hG.mem _ _ _ k2).2) a k2 k1 c k3 k0)
  obtain ⟨s', h1, h2, _, _, h3⟩ := key
  exact ⟨s', h1, h2, h3⟩

theorem pagRule8_run (o : SetOrder α) (sep : α → α → Py (Finset α)) {G : MG α} (hG : G.Proper) (hT : ∀ m, m ∈ G.types) :
    ∃ st, pagRule8 o G = .ok st ∧ Run (fun G H => PagStep sep G H 8) G st ∧ (st.2 = false → ¬ G.PagPattern 8) := by
  have key : Body (fun G H => PagStep sep G H 8) G (fun _ => True) (G, false) (pagRule8 o G) (¬ G.PagPattern 8) := by
    unfold pagRule8
    refine Body.mono (Body.loop (L := fun _ => True) (N := fun b => ∀ a, G.At b a .tail → (G.At a b .arrow ∨ G.At a b .circle) →
      ∀ c, G.Par b c → ¬ (G.At c a .circle ∧ G.At a c .arrow)) .start trivial ?_) (fun _ h => h) ?_
    · intro b _ st hrun _
      have hP := (hrun.oriented hG hT).proper
      refine Body.mono (Body.loop (L := fun s => ∀ x m, (s.1.At x b m ↔ st.1.At x b m) ∧ (s.1.At b x m ↔ st.1.At b x m))
        (N := fun a => ∀ c, G.Par b c → ¬ (G.At c a .circle ∧ G.At a c .arrow)) hrun
        (fun _ _ => ⟨Iff.rfl, Iff.rfl⟩) ?_) (fun _ _ => trivial) ?_
      · intro a ha s1 hr1 hL1
        rw [o.mem, Finset.mem_filter, Finset.mem_union] at ha
        have hab : a ≠ b := hP.ne (Or.inr ⟨_, ha.2⟩)
        refine Body.mono (Body.loop (L := fun s => ∀ x m, (s.1.At x b m ↔ st.1.At x b m) ∧ (s.1.At b x m ↔ st.1.At b x m))
          (N := fun c => ¬ (G.At c a .circle ∧ G.At a c .arrow)) hr1 hL1 ?_) (fun _ h => h) ?_
        · intro c hc s2 hr2 hL2
          rw [o.mem, Finset.mem_filter] at hc
          have hO2 := hr2.oriented hG hT
          have hcb : c ≠ b := hP.ne (Or.inl ⟨_, hc.1⟩)
          obtain ⟨t, ht, ht'⟩ := isEdge_ok (G := s2.1) (by rw [hO2.types]; exact hT) a c .circle .arrow
          rw [py_bind ht]
          cases t with
          | false =>
            refine Body.skip hr2 hL2 ?_
            rintro rfl h
            simpa using ht'.2 h
          | true =>
            have hcond := ht'.1 rfl
            simp only [if_true]
            obtain ⟨H, e, u⟩ := replace_upd hO2.proper (by rw [hO2.types]; exact hT) c a .tail
            rw [py_bind e]
            refine Body.fire hr2 (.r8 a b c ((hL2 a _).2.2 ha.2) ⟨(hL2 c _).2.2 hc.2, (hL2 c _).1.2 hc.1⟩ hcond.1 hcond.2 u) ?_ ?_
            · rintro rfl
              exact single_strict u (by simp) hcond.1
            · intro x m
              constructor
              · rw [← (hL2 x m).1]
                change H.At x b m ↔ _
                rw [single_upd u, if_neg (fun h => hab h.2.symm)]
              · rw [← (hL2 x m).2]
                change H.At b x m ↔ _
                rw [single_upd u, if_neg (fun h => hcb h.1.symm)]
        · rintro rfl h1 c hc
          refine h1 c ?_
          rw [o.mem, Finset.mem_filter]
          exact ⟨(hL1 c _).1.1 hc.2, (hL1 c _).2.1 hc.1⟩
      · rintro rfl h1 a ha hb
        refine h1 a ?_
        rw [o.mem, Finset.mem_filter, Finset.mem_union]
        exact ⟨hb, ha⟩
    · rintro _ h1 ⟨a, b, c, k1, k2, k3, k4, k5⟩
      exact h1 b ((o.mem _ _ _).2 (hG.mem _ _ _ k1).1) a k1 k2 c k3 ⟨k4, k5⟩
  obtain ⟨s', h1, h2, _, _, h3⟩ := key
  exact ⟨s', h1, h2, h3⟩

end

end MG
end Verif
