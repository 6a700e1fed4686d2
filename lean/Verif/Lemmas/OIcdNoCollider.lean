import Verif.Lemmas.OIcdDegRun
import Verif.Lemmas.NoCollider
import Verif.Lemmas.VermaPearl

/-!
# Ordered ICD on DAGs without unshielded colliders: graphs

The tests for a base node `b` take place in the part of the DAG up to `b`. All arrowheads stay where the order puts them: the recorded sets
separate in the DAG of the remaining edges, directed by the order.
-/

namespace Verif
open Relation MG
variable {α : Type} [LinearOrder α] {D : Dag α}

namespace Dag
variable {order : List α}

/-- The part of the DAG with the nodes up to `b`. -/
def upto (D : Dag α) (order : List α) (b : α) : Dag α :=
  ⟨D.nodes.filter (fun y => ¬ Before order b y), fun v => if Before order b v then ∅ else D.par v⟩

theorem upto_edge {b u v : α} : (D.upto order b).Edge u v ↔ D.Edge u v ∧ ¬ Before order b v := by
  show u ∈ (if Before order b v then ∅ else D.par v) ↔ u ∈ D.par v ∧ _
  split_ifs with h <;> simp [h]

theorem mem_upto {b v : α} : v ∈ (D.upto order b).nodes ↔ v ∈ D.nodes ∧ ¬ Before order b v := by
  simp [upto]

omit [LinearOrder α] in
theorem edge_before (hD : D.WF) (hac : D.Acyclic) (ho : D.CausalOrder D.nodes order) {u v : α} (h : D.Edge u v) : Before order u v :=
  ho.anc u (hD _ _ h).1 v (hD _ _ h).2 (by rintro rfl; exact hac _ (.single h)) (.single h)

theorem upto_wf (hD : D.WF) (hac : D.Acyclic) (ho : D.CausalOrder D.nodes order) (b : α) : (D.upto order b).WF := by
  intro u v h
  replace h : (D.upto order b).Edge u v := h
  rw [upto_edge] at h
  rw [mem_upto, mem_upto]
  exact ⟨⟨(hD _ _ h.1).1, fun hb => h.2 (hb.trans ho.isOrder.nodup (edge_before hD hac ho h.1))⟩, (hD _ _ h.1).2, h.2⟩

theorem upto_acyclic (hac : D.Acyclic) (b : α) : (D.upto order b).Acyclic :=
  fun v h => hac v (tg_mono (fun _ _ h => (upto_edge.mp h).1) h)

theorem upto_adj {b u v : α} (h : (D.upto order b).Adj u v) : D.Adj u v :=
  h.imp (fun h => (upto_edge.mp h).1) (fun h => (upto_edge.mp h).1)

theorem adj_upto {b u v : α} (h : D.Adj u v) (hu : ¬ Before order b u) (hv : ¬ Before order b v) : (D.upto order b).Adj u v :=
  h.imp (fun h => upto_edge.mpr ⟨h, hv⟩) (fun h => upto_edge.mpr ⟨h, hu⟩)

theorem NoUCol.upto (hm : D.NoUCol) (hD : D.WF) (hac : D.Acyclic) (ho : D.CausalOrder D.nodes order) (b : α) : (D.upto order b).NoUCol := by
  rintro u v w ⟨h1, h2, h3, h4⟩
  rw [upto_edge] at h1 h2
  have hb : ∀ x, D.Edge x v → ¬ Before order b x := fun x hx h => h1.2 (h.trans ho.isOrder.nodup (edge_before hD hac ho hx))
  exact h4 (adj_upto ((hm.adj h1.1 h2.1).resolve_left h3) (hb _ h1.1) (hb _ h2.1))

theorem upto_mono {b c : α} (ho : D.CausalOrder D.nodes order) (hbc : b = c ∨ Before order b c) {P : α → Prop} {i j : α}
    (h : (D.upto order b).Conn P i j) : (D.upto order c).Conn P i j := by
  have he : ∀ u v, (D.upto order b).Edge u v → (D.upto order c).Edge u v := by
    intro u v h
    rw [upto_edge] at h ⊢
    refine ⟨h.1, fun hc => ?_⟩
    rcases hbc with rfl | hbc
    · exact h.2 hc
    · exact h.2 (hbc.trans ho.isOrder.nodup hc)
  exact rtg_mono (fun u v h => ⟨h.1.imp (he u v) (he v u), h.2⟩) h

theorem conn_of_upto {b : α} {P : α → Prop} {i j : α} (h : (D.upto order b).Conn P i j) : D.Conn P i j :=
  rtg_mono (fun _ _ h => ⟨upto_adj h.1, h.2⟩) h

/-- Paths between earlier nodes can be replaced by paths through earlier nodes. -/
theorem NoUCol.conn_upto (hm : D.NoUCol) (hD : D.WF) (hac : D.Acyclic) (ho : D.CausalOrder D.nodes order) {b : α}
    {Z : Finset α} {i j : α} (hi : i ∉ Z) (hi' : ¬ Before order b i) (hj' : ¬ Before order b j) (h : D.Conn (· ∉ Z) i j) : (D.upto order b).Conn (· ∉ Z) i j := by
  obtain ⟨X, h1, h2, h3, h4, h5⟩ := h.exists_min hi
  have hX : ∀ x ∈ X, ¬ Before order b x := by
    intro x hx hbx
    have key : ∀ y, D.DPath x y → Before order b y := by
      intro y hy
      induction hy with
      | refl => exact hbx
      | tail _ he ih => exact ih.trans ho.isOrder.nodup (edge_before hD hac ho he)
    rcases hm.anc hac h5 hx with h | h
    · exact hi' (key _ h)
    · exact hj' (key _ h)
  have key : ∀ y, D.Conn (· ∈ X) i y → (D.upto order b).Conn (· ∉ Z) i y := by
    intro y hy
    induction hy with
    | refl => exact .refl
    | @tail u v huv hv ih => exact ih.tail ⟨adj_upto hv.1 (hX u (Conn.last (P := (· ∈ X)) huv h2)) (hX v hv.2), h1 v hv.2⟩
  exact key j h4

theorem NoUCol.upto_dseparated (hm : D.NoUCol) (hD : D.WF) (hac : D.Acyclic) (ho : D.CausalOrder D.nodes order) {a b : α} (hab : Before order a b)
    {Z : Finset α} (ha : a ∉ Z) (hb : b ∉ Z) : D.DSeparated a b Z ↔ ¬ (D.upto order b).Conn (· ∉ Z) a b := by
  have hd := ho.isOrder.nodup
  rw [hm.dseparated hac ha hb, not_iff_not]
  exact ⟨hm.conn_upto hD hac ho ha (hab.asymm hd) (fun h => h.ne hd rfl), conn_of_upto⟩

/-- The remaining edges, directed by the order. -/
def directed (N : Finset α) (order : List α) (G : MG α) : Dag α :=
  ⟨N, by classical exact fun b => N.filter (fun a => Before order a b ∧ G.MAdj a b)⟩

theorem directed_edge {N : Finset α} {G : MG α} (hi : OIcd.IsOrder order N) {a b : α} : (directed N order G).Edge a b ↔ Before order a b ∧ G.MAdj a b := by
  classical
  show a ∈ N.filter _ ↔ _
  rw [Finset.mem_filter]
  exact ⟨fun h => h.2, fun h => ⟨(hi.mem a).mp h.1.mem_left, h⟩⟩

theorem directed_path {N : Finset α} {G : MG α} (hi : OIcd.IsOrder order N) {a b : α} (h : TransGen (directed N order G).Edge a b) : Before order a b := by
  induction h with
  | single h => exact ((directed_edge hi).mp h).1
  | tail _ h ih => exact ih.trans hi.nodup ((directed_edge hi).mp h).1

theorem directed_acyclic {N : Finset α} {G : MG α} (hi : OIcd.IsOrder order N) : (directed N order G).Acyclic :=
  fun _ h => (directed_path hi h).ne hi.nodup rfl

theorem directed_order {N : Finset α} {G : MG α} (hi : OIcd.IsOrder order N) : (directed N order G).CausalOrder N order := by
  refine ⟨hi, fun a _ b _ hab h => ?_⟩
  rcases reflTransGen_iff_eq_or_transGen.mp h with e | h
  · exact absurd e.symm hab
  · exact directed_path hi h

theorem directed_adj {N : Finset α} {G : MG α} (hi : OIcd.IsOrder order N) (hG : G.Proper) (hN : G.nodes = N) {a b : α} (h : G.MAdj a b) :
    (directed N order G).Adj a b := by
  have hm := hG.mem_adj h
  rw [hN] at hm
  rcases Before.total ((hi.mem a).mpr hm.1) ((hi.mem b).mpr hm.2) (hG.ne h) with hb | hb
  · exact Or.inl ((directed_edge hi).mpr ⟨hb, h⟩)
  · exact Or.inr ((directed_edge hi).mpr ⟨hb, h.symm⟩)

/-- A set that separates a pair in the DAG separates it in the DAG of the remaining edges, if it is too small to separate the ends of any of
them. -/
theorem NoUCol.directed_sep (hm : D.NoUCol) (hD : D.WF) (hac : D.Acyclic) (ho : D.CausalOrder D.nodes order) {G : MG α} {a c : α}
    (hab : Before order a c) {S : Finset α} {n : Nat} (hn : S.card < n) (ha : a ∉ S) (hS : ∀ v ∈ S, Before order v c)
    (ht : ∀ x y, Before order x y → y = c ∨ Before order y c → G.MAdj x y → (D.upto order y).Tied n x y)
    (hs : ¬ (D.upto order c).Conn (· ∉ S) a c) : (directed D.nodes order G).DSeparated a c S := by
  have hi := ho.isOrder
  have hd := hi.nodup
  have hc : c ∉ S := fun h => (hS c h).ne hd rfl
  have hle : ∀ {x y}, Before order x y → y = c ∨ Before order y c → x = c ∨ Before order x c := by
    rintro x y h (rfl | h')
    · exact Or.inr h
    · exact Or.inr (h.trans hd h')
  -- the ends of a remaining edge are connected
  have hedge : ∀ x y, Before order x y → y = c ∨ Before order y c → G.MAdj x y → x ∉ S → y ∉ S → (D.upto order c).Conn (· ∉ S) x y :=
    fun x y h1 h2 h3 hx hy => upto_mono ho h2 (ht x y h1 h2 h3 S hn hx hy)
  -- a neighbour of a node of `S` on the way
  have hnbr : ∀ x w, Before order x w → w = c ∨ Before order w c → G.MAdj x w → x ∉ S → w ∈ S →
      ∃ p, (D.upto order c).Conn (· ∉ S) x p ∧ D.Edge p w := by
    intro x w h1 h2 h3 hx hw
    have hconn := ht x w h1 h2 h3 (S.erase w) (lt_of_le_of_lt (Finset.card_le_card (Finset.erase_subset _ _)) hn)
      (fun h => hx (Finset.mem_of_mem_erase h)) (by simp)
    obtain ⟨p, p1, p2⟩ := exists_nbr (D := D.upto order w) (S := S) (s := w) (fun h => h.last hx hw) hconn
    refine ⟨p, upto_mono ho h2 p1, ?_⟩
    rcases p2 with p2 | p2
    · exact (upto_edge.mp p2).1
    · exact absurd (edge_before hD hac ho (upto_edge.mp p2).1) (upto_edge.mp p2).2
  have hE := directed_acyclic (G := G) hi
  rw [DSeparated, activePath_iff_aug hE ha hc, ← moralConn_iff hE]
  intro h
  have hanc : ∀ y, (∃ w, (w = a ∨ w = c ∨ w ∈ S) ∧ (directed D.nodes order G).DPath y w) → y = c ∨ Before order y c := by
    rintro y ⟨w, hw, hy⟩
    have hwc : w = c ∨ Before order w c := by
      rcases hw with rfl | rfl | h
      · exact Or.inr hab
      · exact Or.inl rfl
      · exact Or.inr (hS w h)
    rcases reflTransGen_iff_eq_or_transGen.mp hy with rfl | hy
    · exact hwc
    · exact hle (directed_path hi hy) hwc
  have key : ∀ y, ReflTransGen (fun u v => ((directed D.nodes order G).Adj u v ∨ ∃ w, (directed D.nodes order G).Edge u w ∧
      (directed D.nodes order G).Edge v w ∧ ∃ x, (x = a ∨ x = c ∨ x ∈ S) ∧ (directed D.nodes order G).DPath w x) ∧
      (∃ w, (w = a ∨ w = c ∨ w ∈ S) ∧ (directed D.nodes order G).DPath v w) ∧ v ∉ S) a y →
      (y = c ∨ Before order y c) ∧ (D.upto order c).Conn (· ∉ S) a y := by
    intro y hy
    induction hy with
    | refl => exact ⟨Or.inr hab, .refl⟩
    | @tail u v _ huv ih =>
      obtain ⟨hu, hau⟩ := ih
      obtain ⟨h1, h2, h3⟩ := huv
      have hv := hanc v h2
      have huS : u ∉ S := hau.last ha
      refine ⟨hv, hau.trans ?_⟩
      rcases h1 with (h1 | h1) | ⟨w, w1, w2, w3⟩
      · rw [directed_edge hi] at h1
        exact hedge u v h1.1 hv h1.2 huS h3
      · rw [directed_edge hi] at h1
        exact (hedge v u h1.1 hu h1.2 h3 huS).symm h3
      · rw [directed_edge hi] at w1 w2
        have hw := hanc w w3
        by_cases hwS : w ∈ S
        · obtain ⟨p, p1, p2⟩ := hnbr u w w1.1 hw w1.2 huS hwS
          obtain ⟨q, q1, q2⟩ := hnbr v w w2.1 hw w2.2 h3 hwS
          have hq : q ∉ S := q1.last h3
          have hlt : ∀ {x}, D.Edge x w → ¬ Before order c x := fun hx h =>
            (hle (edge_before hD hac ho hx) hw).elim (fun e => (e ▸ h).ne hd rfl) (h.asymm hd)
          have hpq : (D.upto order c).Conn (· ∉ S) p q := by
            rcases hm.adj p2 q2 with rfl | h
            · exact .refl
            · exact .single ⟨adj_upto h (hlt p2) (hlt q2), hq⟩
          exact (p1.trans hpq).trans (q1.symm h3)
        · exact (hedge u w w1.1 hw w1.2 huS hwS).trans ((hedge v w w2.1 hw w2.2 h3 hwS).symm h3)
  exact hs (key c h).2

end Dag
end Verif
