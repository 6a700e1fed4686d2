import Verif.Lemmas.PdsEdit
import Mathlib.Algebra.Order.BigOperators.Group.Finset

/-!
# Lemmas for the search of possible-d-sep nodes
-/

namespace Verif
variable {α : Type} [DecidableEq α]
open PdsTree

omit [DecidableEq α] in
theorem LastEdge.concat {root : α} {l : List α} {a b c : α} (h : LastEdge root l a b) : LastEdge root (l ++ [c]) b c := by
  obtain ⟨pre, h⟩ := h
  exact ⟨pre ++ [a], by rw [← List.cons_append, h]; simp⟩

omit [DecidableEq α] in
theorem LastEdge.unique {root : α} {l : List α} {a b c d : α} (h : LastEdge root l a b) (h' : LastEdge root l c d) :
    a = c ∧ b = d := by
  obtain ⟨pre, h⟩ := h
  obtain ⟨pre', h'⟩ := h'
  rw [h] at h'
  have := (List.append_inj' h' rfl).2
  simpa using this

omit [DecidableEq α] in
theorem LastEdge.single (root v : α) : LastEdge root [v] root v := ⟨[], rfl⟩

omit [DecidableEq α] in
theorem LastEdge.of_concat {root : α} {l : List α} {a b v : α} (h : LastEdge root (l ++ [v]) a b) : v = b := by
  obtain ⟨pre, h⟩ := h
  have : (root :: l) ++ [v] = (pre ++ [a]) ++ [b] := by simpa using h
  simpa using (List.append_inj' this rfl).2

omit [DecidableEq α] in
/-- Nonempty lists have a last edge. -/
theorem LastEdge.exists {root : α} {l : List α} (h : l ≠ []) : ∃ a b, LastEdge root l a b := by
  obtain ⟨m, v, rfl⟩ := List.eq_nil_or_concat l |>.resolve_left h
  rcases List.eq_nil_or_concat m with rfl | ⟨m', w, rfl⟩
  · exact ⟨root, v, LastEdge.single _ _⟩
  · exact ⟨w, v, root :: m', by simp⟩

/-- The number of (ordered) pairs of neighbours. -/
def UGraph.size (A : UGraph α) : Nat := ∑ v ∈ A.nodes, (A.adj v).card

/-- What holds at the head of the `while` loop (`cur = none`) and of the `for` loop (`cur = some (q, done)`: `q` is the
popped triple, `done` are the neighbours that have been visited). -/
structure PdsInv (G : MG α) (en : Finset α) (root : α) (maxDepth : Nat) (st : PdsState α)
    (cur : Option ((α × α × List α) × List α)) : Prop where
  nodes : st.adj.nodes = en
  sym : ∀ a b, b ∈ st.adj.adj a → a ∈ st.adj.adj b
  sub : ∀ a b, b ∈ st.adj.adj a → a ∈ en ∧ b ∈ en ∧ a ≠ b ∧ G.MAdj a b ∧ a ≠ root ∧ b ≠ root
  wf : st.tree.Wf
  origin : st.tree.origin = root
  depth : st.tree.depth = 0
  walk : ∀ l, IsBranch st.tree l → G.PdsWalk en root l
  short : ∀ l, IsBranch st.tree l → l.length ≤ max 1 maxDepth
  queue : ∀ q ∈ st.queue, IsBranch st.tree q.2.2 ∧ LastEdge root q.2.2 q.1 q.2.1
  qcur : ∀ q dn, cur = some (q, dn) → IsBranch st.tree q.2.2 ∧ LastEdge root q.2.2 q.1 q.2.1 ∧ q.2.2.length < maxDepth
  leaf : ∀ q ∈ st.queue, ∀ x, ¬ IsBranch st.tree (q.2.2 ++ [x])
  lcur : ∀ q dn, cur = some (q, dn) → ∀ x, IsBranch st.tree (q.2.2 ++ [x]) → x ∈ dn
  nodup : (st.queue.map (fun q => q.2.2)).Nodup
  ncur : ∀ q dn, cur = some (q, dn) → q.2.2 ∉ st.queue.map (fun q => q.2.2)
  pds : ∀ v, v ∈ st.pds ↔ ∃ l, IsBranch st.tree (l ++ [v])
  first : ∀ v ∈ en, v ≠ root → G.MAdj root v → IsBranch st.tree [v]
  removed : ∀ l a b, IsBranch st.tree l → LastEdge root l a b → b ∉ st.adj.adj a
  uniq : ∀ l l' a b, IsBranch st.tree l → IsBranch st.tree l' → LastEdge root l a b →
    LastEdge root l' a b ∨ LastEdge root l' b a → l = l'
  used : ∀ a ∈ en, ∀ b ∈ en, a ≠ b → G.MAdj a b → a ≠ root → b ≠ root →
    b ∈ st.adj.adj a ∨ ∃ l, IsBranch st.tree l ∧ (LastEdge root l a b ∨ LastEdge root l b a)
  closed : ∀ l a b, IsBranch st.tree l → LastEdge root l a b → l.length < maxDepth →
    l ∉ st.queue.map (fun q => q.2.2) → (∀ q dn, cur = some (q, dn) → l ≠ q.2.2) →
    ∀ c ∈ en, c ≠ root → G.PdsTriple a b c → c ∉ st.adj.adj b
  ccur : ∀ q dn, cur = some (q, dn) → ∀ c ∈ dn, G.PdsTriple q.1 q.2.1 c → c ∉ st.adj.adj q.2.1
  long : ∀ l, IsBranch st.tree l → l.length ≤ st.pds.length

namespace MG

omit [DecidableEq α] in
theorem PdsWalk.snoc {G : MG α} {en : Finset α} {root : α} {l : List α} {a b c : α} (h : G.PdsWalk en root l)
    (hl : LastEdge root l a b) (hc : c ∈ en) (hr : c ≠ root) (ht : G.PdsTriple a b c) :
    G.PdsWalk en root (l ++ [c]) := by
  obtain ⟨pre, hp⟩ := hl
  have e : root :: (l ++ [c]) = pre ++ [a, b] ++ [c] := by rw [← hp]; rfl
  refine ⟨?_, ?_, ?_, ?_⟩
  · rw [e, List.isChain_append]
    refine ⟨by rw [← hp]; exact h.chain, by simp, ?_⟩
    intro x hx y hy
    simp at hx hy
    subst hx hy
    exact ht.2.2.1
  · intro v hv
    rcases List.mem_append.mp hv with hv | hv
    · exact h.mem v hv
    · rw [List.mem_singleton.mp hv]; exact hc
  · intro hm
    rcases List.mem_append.mp hm with hv | hv
    · exact h.avoid hv
    · exact hr (List.mem_singleton.mp hv).symm
  · intro x y z hxyz
    rw [e] at hxyz
    obtain ⟨s, t, hst⟩ := hxyz
    rcases List.eq_nil_or_concat t with rfl | ⟨t', w, rfl⟩
    · have h1 : (s ++ [x]) ++ [y, z] = (pre ++ [a]) ++ [b, c] := by simpa using hst
      have h2 := List.append_inj' h1 rfl
      have h3 := (List.append_inj' h2.1 rfl).2
      simp at h2 h3
      rw [h3, h2.2.1, h2.2.2]
      exact ht
    · have h1 : (s ++ [x, y, z] ++ t') ++ [w] = (pre ++ [a, b]) ++ [c] := by simpa using hst
      have h2 := (List.append_inj' h1 rfl).1
      exact h.legal x y z ⟨s, t', by rw [h2, hp]⟩

omit [DecidableEq α] in
theorem size_remove {A A' : UGraph α} {i j : α} (hN : A'.nodes = A.nodes)
    (hA : ∀ a b, b ∈ A'.adj a ↔ b ∈ A.adj a ∧ ¬ (a = i ∧ b = j) ∧ ¬ (a = j ∧ b = i)) (hi : i ∈ A.nodes)
    (hj : j ∈ A.adj i) : A'.size + 1 ≤ A.size := by
  rw [UGraph.size, UGraph.size, hN]
  refine Finset.sum_lt_sum (fun v _ => Finset.card_le_card (fun w hw => ((hA v w).mp hw).1)) ⟨i, hi, ?_⟩
  refine Finset.card_lt_card ⟨fun w hw => ((hA i w).mp hw).1, fun h => ?_⟩
  have := (hA i j).mp (h hj)
  exact this.2.1 ⟨rfl, rfl⟩

omit [DecidableEq α] in
theorem PdsWalk.lastAdj {G : MG α} {en : Finset α} {root : α} {l : List α} {a b : α} (h : G.PdsWalk en root l)
    (hl : LastEdge root l a b) : G.MAdj a b := by
  obtain ⟨pre, hp⟩ := hl
  have := h.chain
  rw [hp, List.isChain_append] at this
  simpa using this.2.1

/-- One step of the `for` loop. -/
theorem pdsVisit_spec {G : MG α} (hG : G.Proper) {en : Finset α} {root : α} {maxDepth : Nat}
    {st : PdsState α} {n1 n2 : α} {ref dn : List α} (h : PdsInv G en root maxDepth st (some ((n1, n2, ref), dn))) {v : α}
    (hv : v ∈ st.adj.adj n2) (hdn : v ∉ dn) :
    ∃ st', pdsVisit G n1 n2 ref st v = .ok st' ∧ PdsInv G en root maxDepth st' (some ((n1, n2, ref), dn ++ [v])) ∧
      (∀ x ∈ st.adj.adj n2, x ≠ v → x ∈ st'.adj.adj n2) ∧
      (∀ x, x ∈ st'.adj.adj n2 → x ∈ st.adj.adj n2) ∧
      st'.adj.size + st'.queue.length ≤ st.adj.size + st.queue.length ∧
      st'.adj.size + st'.pds.length ≤ st.adj.size + st.pds.length := by
  obtain ⟨hb, hle, hlen⟩ := h.qcur _ _ rfl
  simp only at hb hle hlen
  obtain ⟨s1, s2, s3, s4, s5, s6⟩ := h.sub _ _ hv
  have h12 : n1 ≠ n2 := by
    intro e
    have := (h.walk _ hb).lastAdj hle
    rw [e] at this
    rcases this with ⟨m, hm⟩ | ⟨m, hm⟩ <;> exact hG.irrefl _ _ hm
  obtain ⟨b, hb1, hb2⟩ := isPossibleCollider_spec hG.type h12 s3
  cases b with
  | false =>
    have hnt : ¬ G.PdsTriple n1 n2 v := fun ht => by simpa using hb2.mpr ht
    refine ⟨st, by rw [pdsVisit, py_bind hb1]; rfl, ?_, fun x hx _ => hx, fun x hx => hx, le_rfl, le_rfl⟩
    refine { h with
      qcur := ?_, lcur := ?_, ncur := ?_, closed := ?_, ccur := ?_ }
    · intro q dn' e
      cases e
      exact ⟨hb, hle, hlen⟩
    · intro q dn' e x hx
      cases e
      exact List.mem_append.mpr (Or.inl (h.lcur _ _ rfl x hx))
    · intro q dn' e
      cases e
      exact h.ncur _ _ rfl
    · intro l a b h1 h2 h3 h4 h5
      refine h.closed l a b h1 h2 h3 h4 ?_
      intro q dn' e
      cases e
      exact h5 _ _ rfl
    · intro q dn' e c hc ht
      cases e
      rcases List.mem_append.mp hc with hc | hc
      · exact h.ccur _ _ rfl c hc ht
      · rw [List.mem_singleton.mp hc] at ht
        exact absurd ht hnt
  | true =>
    have ht : G.PdsTriple n1 n2 v := hb2.mp rfl
    obtain ⟨A', r1, r2, r3⟩ := UGraph.removeEdge_spec (A := st.adj) (i := n2) (j := v) (by rw [h.nodes]; exact s1)
      (by rw [h.nodes]; exact s2)
    have hnb : ¬ IsBranch st.tree (ref ++ [v]) := fun hx => hdn (h.lcur _ _ rfl v hx)
    obtain ⟨T', t1, t2, t3, t4, t5⟩ := addBranchAt_ok h.wf hb hnb
    have hsz := size_remove r2 r3 (by rw [h.nodes]; exact s1) hv
    have hnew : LastEdge root (ref ++ [v]) n2 v := hle.concat
    have hqn : ref ++ [v] ∉ st.queue.map (fun q => q.2.2) := by
      intro hm
      obtain ⟨q, hq, e⟩ := List.mem_map.mp hm
      exact hnb (e ▸ (h.queue q hq).1)
    have hle' : ∀ l a b, IsBranch st.tree l → LastEdge root l a b → b ∉ A'.adj a := by
      intro l a b h1 h2 h3
      exact h.removed l a b h1 h2 ((r3 a b).mp h3).1
    refine ⟨⟨A', st.queue ++ [(n2, v, ref ++ [v])], st.pds ++ [v], T'⟩, ?_, ?_, ?_, ?_, ?_, ?_⟩
    · rw [pdsVisit, py_bind hb1]
      simp only [if_true]
      rw [py_bind r1]
      exact (py_bind t1 _).trans rfl
    · constructor
      · exact r2.trans h.nodes
      · intro a b hab
        rw [r3] at hab ⊢
        exact ⟨h.sym _ _ hab.1, fun e => hab.2.2 ⟨e.2, e.1⟩, fun e => hab.2.1 ⟨e.2, e.1⟩⟩
      · intro a b hab
        exact h.sub _ _ ((r3 a b).mp hab).1
      · exact t2
      · exact t3.trans h.origin
      · exact t4.trans h.depth
      · intro l hl
        rcases (t5 l).mp hl with hl | rfl
        · exact h.walk l hl
        · exact (h.walk _ hb).snoc hle s2 s6 ht
      · intro l hl
        rcases (t5 l).mp hl with hl | rfl
        · exact h.short l hl
        · rw [List.length_append]; simp only [List.length_singleton]; omega
      · intro q hq
        rcases List.mem_append.mp hq with hq | hq
        · exact ⟨(t5 _).mpr (Or.inl (h.queue q hq).1), (h.queue q hq).2⟩
        · rw [List.mem_singleton.mp hq]
          exact ⟨(t5 _).mpr (Or.inr rfl), hnew⟩
      · intro q dn' e
        cases e
        exact ⟨(t5 _).mpr (Or.inl hb), hle, hlen⟩
      · intro q hq x hx
        rcases List.mem_append.mp hq with hq | hq
        · rcases (t5 _).mp hx with hx | hx
          · exact h.leaf q hq x hx
          · have := (List.append_inj' hx rfl).1
            exact h.ncur _ _ rfl (List.mem_map.mpr ⟨q, hq, this⟩)
        · rw [List.mem_singleton.mp hq] at hx
          rcases (t5 _).mp hx with hx | hx
          · exact hnb hx.prefix
          · have := congrArg List.length hx
            simp at this
      · intro q dn' e x hx
        cases e
        rcases (t5 _).mp hx with hx | hx
        · exact List.mem_append.mpr (Or.inl (h.lcur _ _ rfl x hx))
        · have := (List.append_inj' hx rfl).2
          exact List.mem_append.mpr (Or.inr (by simpa using this))
      · simp only [List.map_append, List.map_cons, List.map_nil]
        rw [List.nodup_append]
        refine ⟨h.nodup, by simp, ?_⟩
        intro a ha b hb' e
        rw [List.mem_singleton.mp hb'] at e
        exact hqn (e ▸ ha)
      · intro q dn' e
        cases e
        simp only [List.map_append, List.map_cons, List.map_nil, List.mem_append, List.mem_singleton, not_or]
        refine ⟨h.ncur _ _ rfl, fun e => ?_⟩
        have := congrArg List.length e
        simp at this
      · intro w
        rw [List.mem_append, h.pds]
        constructor
        · rintro (⟨l, hl⟩ | hw)
          · exact ⟨l, (t5 _).mpr (Or.inl hl)⟩
          · rw [List.mem_singleton.mp hw]
            exact ⟨ref, (t5 _).mpr (Or.inr rfl)⟩
        · rintro ⟨l, hl⟩
          rcases (t5 _).mp hl with hl | hl
          · exact Or.inl ⟨l, hl⟩
          · exact Or.inr (by simpa using (List.append_inj' hl rfl).2)
      · intro w hw hw' hwa
        exact (t5 _).mpr (Or.inl (h.first w hw hw' hwa))
      · intro l a b hl hab
        rcases (t5 l).mp hl with hl | rfl
        · exact hle' l a b hl hab
        · obtain ⟨rfl, rfl⟩ := hnew.unique hab
          intro hx
          exact ((r3 _ _).mp hx).2.1 ⟨rfl, rfl⟩
      · have hfresh : ∀ l a b, IsBranch st.tree l → LastEdge root l a b → (a = n2 ∧ b = v) ∨ (a = v ∧ b = n2) → False := by
          rintro l a b h1 h2 (⟨rfl, rfl⟩ | ⟨rfl, rfl⟩)
          · exact h.removed _ _ _ h1 h2 hv
          · exact h.removed _ _ _ h1 h2 (h.sym _ _ hv)
        intro l l' a b hl hl' hab hab'
        rcases (t5 l).mp hl with hl | rfl
        · rcases (t5 l').mp hl' with hl' | rfl
          · exact h.uniq l l' a b hl hl' hab hab'
          · exfalso
            rcases hab' with hab' | hab'
            · obtain ⟨e1, e2⟩ := hnew.unique hab'
              exact hfresh l a b hl hab (Or.inl ⟨e1.symm, e2.symm⟩)
            · obtain ⟨e1, e2⟩ := hnew.unique hab'
              exact hfresh l a b hl hab (Or.inr ⟨e2.symm, e1.symm⟩)
        · obtain ⟨rfl, rfl⟩ := hnew.unique hab
          rcases (t5 l').mp hl' with hl' | rfl
          · exfalso
            rcases hab' with hab' | hab'
            · exact hfresh l' _ _ hl' hab' (Or.inl ⟨rfl, rfl⟩)
            · exact hfresh l' _ _ hl' hab' (Or.inr ⟨rfl, rfl⟩)
          · rfl
      · intro a ha b hb' hne hadj ha' hb''
        rcases h.used a ha b hb' hne hadj ha' hb'' with hx | ⟨l, hl, hx⟩
        · by_cases e1 : a = n2 ∧ b = v
          · right
            rw [e1.1, e1.2]
            exact ⟨_, (t5 _).mpr (Or.inr rfl), Or.inl hnew⟩
          · by_cases e2 : a = v ∧ b = n2
            · right
              rw [e2.1, e2.2]
              exact ⟨_, (t5 _).mpr (Or.inr rfl), Or.inr hnew⟩
            · exact Or.inl ((r3 a b).mpr ⟨hx, e1, e2⟩)
        · exact Or.inr ⟨l, (t5 _).mpr (Or.inl hl), hx⟩
      · intro l a b hl hab hlen' hq hcur c hc hcr htr hx
        simp only [List.map_append, List.map_cons, List.map_nil, List.mem_append, List.mem_singleton, not_or] at hq
        rcases (t5 l).mp hl with hl | hl
        · exact h.closed l a b hl hab hlen' hq.1 (by intro q dn' e; cases e; exact hcur _ _ rfl) c hc hcr htr
            ((r3 b c).mp hx).1
        · exact hq.2 hl
      · intro q dn' e c hc htr hx
        cases e
        have hx' := (r3 _ _).mp hx
        rcases List.mem_append.mp hc with hc | hc
        · exact h.ccur _ _ rfl c hc htr hx'.1
        · exact hx'.2.1 ⟨rfl, List.mem_singleton.mp hc⟩
      · intro l hl
        simp only [List.length_append, List.length_singleton]
        rcases (t5 l).mp hl with hl | rfl
        · have := h.long l hl; omega
        · have := h.long ref hb
          simp only [List.length_append, List.length_singleton]
          omega
    · intro x hx hne
      exact (r3 _ _).mpr ⟨hx, fun e => hne e.2, fun e => s3 e.1⟩
    · intro x hx
      exact ((r3 _ _).mp hx).1
    · simp only [List.length_append, List.length_singleton]; omega
    · simp only [List.length_append, List.length_singleton]; omega

/-- The `for` loop. -/
theorem pdsFor_spec {G : MG α} (hG : G.Proper) {en : Finset α} {root : α} {maxDepth : Nat} {n1 n2 : α} {ref : List α} :
    ∀ (nbs : List α) (st : PdsState α) (dn : List α), nbs.Nodup → (∀ x ∈ nbs, x ∈ st.adj.adj n2 ∧ x ∉ dn) →
      PdsInv G en root maxDepth st (some ((n1, n2, ref), dn)) →
      ∃ st', nbs.foldlM (fun st n3 => pdsVisit G n1 n2 ref st n3) st = .ok st' ∧
        PdsInv G en root maxDepth st' (some ((n1, n2, ref), dn ++ nbs)) ∧
        (∀ x, x ∈ st'.adj.adj n2 → x ∈ st.adj.adj n2) ∧
        st'.adj.size + st'.queue.length ≤ st.adj.size + st.queue.length ∧
        st'.adj.size + st'.pds.length ≤ st.adj.size + st.pds.length := by
  intro nbs
  induction nbs with
  | nil => intro st dn _ _ h; exact ⟨st, rfl, by simpa using h, fun x hx => hx, le_rfl, le_rfl⟩
  | cons v nbs ih =>
    intro st dn hnd hm h
    obtain ⟨hv, hnd⟩ := List.nodup_cons.mp hnd
    obtain ⟨st1, a1, a2, a3, a4, a5, a6⟩ := pdsVisit_spec hG h (hm v (by simp)).1 (hm v (by simp)).2
    obtain ⟨st2, b1, b2, b3, b4, b5⟩ := ih st1 (dn ++ [v]) hnd (by
      intro x hx
      have hxv : x ≠ v := fun e => hv (e ▸ hx)
      obtain ⟨m1, m2⟩ := hm x (by simp [hx])
      exact ⟨a3 x m1 hxv, by simp [m2, hxv]⟩) a2
    refine ⟨st2, by rw [foldlM_cons_ok a1]; exact b1, by simpa using b2, fun x hx => a4 x (b3 x hx), by omega, by omega⟩

omit [DecidableEq α] in
/-- Popping a triple whose tree is too deep. -/
theorem PdsInv.skip {G : MG α} {en : Finset α} {root : α} {maxDepth : Nat} {st : PdsState α} {q : α × α × List α}
    {rest : List (α × α × List α)} (h : PdsInv G en root maxDepth st none) (hq : st.queue = q :: rest)
    (hd : q.2.2.length ≥ maxDepth) : PdsInv G en root maxDepth { st with queue := rest } none := by
  have hnd := h.nodup
  rw [hq, List.map_cons, List.nodup_cons] at hnd
  have hmem : ∀ x ∈ rest, x ∈ st.queue := fun x hx => by rw [hq]; simp [hx]
  exact { h with
    queue := fun x hx => h.queue x (hmem x hx)
    leaf := fun x hx => h.leaf x (hmem x hx)
    nodup := hnd.2
    qcur := by intro _ _ e; cases e
    lcur := by intro _ _ e; cases e
    ncur := by intro _ _ e; cases e
    ccur := by intro _ _ e; cases e
    closed := by
      intro l a b h1 h2 h3 h4 _
      refine h.closed l a b h1 h2 h3 ?_ (by intro _ _ e; cases e)
      rw [hq, List.map_cons, List.mem_cons, not_or]
      refine ⟨fun e => ?_, h4⟩
      rw [e] at h3
      omega }

omit [DecidableEq α] in
/-- Popping a triple for the `for` loop. -/
theorem PdsInv.start {G : MG α} {en : Finset α} {root : α} {maxDepth : Nat} {st : PdsState α} {q : α × α × List α}
    {rest : List (α × α × List α)} (h : PdsInv G en root maxDepth st none) (hq : st.queue = q :: rest)
    (hd : q.2.2.length < maxDepth) : PdsInv G en root maxDepth { st with queue := rest } (some (q, [])) := by
  have hnd := h.nodup
  rw [hq, List.map_cons, List.nodup_cons] at hnd
  have hmem : ∀ x ∈ rest, x ∈ st.queue := fun x hx => by rw [hq]; simp [hx]
  have hq0 : q ∈ st.queue := by rw [hq]; simp
  exact { h with
    queue := fun x hx => h.queue x (hmem x hx)
    leaf := fun x hx => h.leaf x (hmem x hx)
    nodup := hnd.2
    qcur := by
      intro _ _ e
      cases e
      exact ⟨(h.queue q hq0).1, (h.queue q hq0).2, hd⟩
    lcur := by
      intro _ _ e x hx
      cases e
      exact absurd hx (h.leaf q hq0 x)
    ncur := by
      intro _ _ e
      cases e
      exact hnd.1
    ccur := by
      intro _ _ e
      cases e
      simp
    closed := by
      intro l a b h1 h2 h3 h4 h5
      refine h.closed l a b h1 h2 h3 ?_ (by intro _ _ e; cases e)
      rw [hq, List.map_cons, List.mem_cons, not_or]
      exact ⟨h5 _ _ rfl, h4⟩ }

/-- The end of the `for` loop. -/
theorem PdsInv.finish {G : MG α} {en : Finset α} {root : α} {maxDepth : Nat} {st : PdsState α} {q : α × α × List α}
    {dn : List α} (h : PdsInv G en root maxDepth st (some (q, dn))) (hd : ∀ x ∈ st.adj.adj q.2.1, x ∈ dn) :
    PdsInv G en root maxDepth st none := by
  exact { h with
    qcur := by intro _ _ e; cases e
    lcur := by intro _ _ e; cases e
    ncur := by intro _ _ e; cases e
    ccur := by intro _ _ e; cases e
    closed := by
      intro l a b h1 h2 h3 h4 _ c hc hcr ht hx
      by_cases e : l = q.2.2
      · subst e
        obtain ⟨-, hle, -⟩ := h.qcur _ _ rfl
        obtain ⟨rfl, rfl⟩ := hle.unique h2
        exact h.ccur _ _ rfl c (hd c hx) ht hx
      · refine h.closed l a b h1 h2 h3 h4 ?_ c hc hcr ht hx
        intro _ _ e'
        cases e'
        exact e }

/-- The state without the tree. -/
def _root_.Verif.PdsState.forget (st : PdsState α) : PdsSetState α :=
  ⟨st.adj, st.queue.map (fun q => (q.1, q.2.1)), st.pds⟩

theorem pdsVisit_forget {G : MG α} {n1 n2 v : α} {ref : List α} {st st' : PdsState α}
    (h : pdsVisit G n1 n2 ref st v = .ok st') : pdsSetVisit G n1 n2 st.forget v = .ok st'.forget := by
  rw [pdsVisit] at h
  rw [pdsSetVisit]
  cases hb : G.isPossibleCollider n1 n2 v with
  | error e => rw [py_bind_err hb] at h; cases h
  | ok b =>
    rw [py_bind hb] at h
    cases b with
    | false => cases h; rfl
    | true =>
      simp only [if_true] at h
      cases hr : st.adj.removeEdge n2 v with
      | error e => rw [py_bind_err hr] at h; cases h
      | ok A =>
        rw [py_bind hr] at h
        cases ht : addBranchAt v ref st.tree with
        | error e => rw [py_bind_err ht] at h; cases h
        | ok T =>
          rw [py_bind ht] at h
          cases h
          have : st.forget.adj.removeEdge n2 v = .ok A := hr
          refine (py_bind this _).trans ?_
          simp only [PdsState.forget, List.map_append, List.map_cons, List.map_nil]
          rfl

theorem pdsFor_forget {G : MG α} {n1 n2 : α} {ref : List α} : ∀ {nbs : List α} {st st' : PdsState α},
    nbs.foldlM (fun st n3 => pdsVisit G n1 n2 ref st n3) st = .ok st' →
    nbs.foldlM (fun st n3 => pdsSetVisit G n1 n2 st n3) st.forget = .ok st'.forget
  | [], st, st', h => by cases h; rfl
  | v :: nbs, st, st', h => by
    cases hv : pdsVisit G n1 n2 ref st v with
    | error e =>
      rw [List.foldlM_cons, py_bind_err hv] at h
      cases h
    | ok st1 =>
      rw [foldlM_cons_ok hv] at h
      rw [foldlM_cons_ok (pdsVisit_forget hv)]
      exact pdsFor_forget h

/-- The `while` loop. -/
theorem pdsLoop_spec (o : SetOrder α) {G : MG α} (hG : G.Proper) {en : Finset α} {root : α} {maxDepth : Nat} :
    ∀ (n : Nat) (st : PdsState α), PdsInv G en root maxDepth st none → st.adj.size + st.queue.length < n →
      ∃ st', pdsLoop o G maxDepth n st = .ok st' ∧ PdsInv G en root maxDepth st' none ∧ st'.queue = [] ∧
        (st.adj.size + st.pds.length < maxDepth → pdsSetLoop o G n st.forget = .ok st'.forget) ∧
        st'.adj.size + st'.pds.length ≤ st.adj.size + st.pds.length := by
  intro n
  induction n with
  | zero => intro st _ h; omega
  | succ n ih =>
    intro st h hn
    rw [pdsLoop]
    cases hq : st.queue with
    | nil =>
      refine ⟨st, rfl, h, hq, fun _ => ?_, le_rfl⟩
      rw [pdsSetLoop, PdsState.forget, hq]
      rfl
    | cons q rest =>
      obtain ⟨n1, n2, ref⟩ := q
      have hq0 : (n1, n2, ref) ∈ st.queue := by rw [hq]; simp
      obtain ⟨hbr, hle⟩ := h.queue _ hq0
      simp only at hbr hle
      obtain ⟨t2, ht, hd⟩ := subtreeAt_ok h.wf hbr
      rw [h.depth, Nat.zero_add] at hd
      rw [hq, List.length_cons] at hn
      have hlong : ref.length ≤ st.pds.length := h.long _ hbr
      simp only
      rw [py_bind ht]
      by_cases hdep : t2.depth ≥ maxDepth
      · rw [if_pos hdep]
        obtain ⟨st', c1, c2, c3, c4, c5⟩ := ih _ (PdsInv.skip h hq (by rw [← hd]; exact hdep)) (by simp only; omega)
        exact ⟨st', c1, c2, c3, fun hlt => by omega, c5⟩
      · rw [if_neg hdep]
        have hwalk := h.walk _ hbr
        have hn2 : n2 ∈ en ∧ n2 ≠ root := by
          obtain ⟨pre, hp⟩ := hle
          have : n2 ∈ ref := by
            cases pre with
            | nil => obtain ⟨-, e⟩ := List.cons.inj hp; rw [e]; simp
            | cons r pre => obtain ⟨-, e⟩ := List.cons.inj hp; rw [e]; simp
          exact ⟨hwalk.mem _ this, fun e => hwalk.avoid (e ▸ this)⟩
        obtain ⟨nbs, m1, m2, m3⟩ := UGraph.getNeighbors_spec o (A := st.adj) h.sym
          (fun a b hab => by
            obtain ⟨e1, e2, e3, -⟩ := h.sub a b hab
            exact ⟨by rw [h.nodes]; exact e2, e3⟩) (v := n2) (by rw [h.nodes]; exact hn2.1)
        obtain ⟨st1, d1, d2, d3, d4, d5⟩ := pdsFor_spec hG nbs { st with queue := rest } [] m2
          (fun x hx => ⟨(m3 x).mp hx, by simp⟩) (PdsInv.start h hq (by simp only; omega))
        have hfin := PdsInv.finish d2 (fun x hx => by simpa using (m3 x).mpr (d3 x hx))
        simp only at d4 d5
        obtain ⟨st', c1, c2, c3, c4, c5⟩ := ih st1 hfin (by omega)
        refine ⟨st', ?_, c2, c3, ?_, by omega⟩
        · rw [py_bind m1, py_bind d1]
          exact c1
        · intro hlt
          have hf := pdsFor_forget d1
          rw [pdsSetLoop]
          have e : st.forget.queue = (n1, n2) :: rest.map (fun q => (q.1, q.2.1)) := by
            rw [PdsState.forget, hq]; rfl
          rw [e]
          simp only
          have m1' : st.forget.adj.getNeighbors o n2 = .ok nbs := m1
          rw [py_bind m1']
          exact (py_bind hf _).trans (c4 (by omega))

end MG
end Verif
