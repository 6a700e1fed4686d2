import Verif.Lemmas.Rai

/-!
# The RAI learner: which edges `orient_v_structures` directs
-/

namespace Verif
namespace Rai
variable {α : Type} [LinearOrder α]

/-- `a – b` is undirected, `a` and `c` are not adjacent and `b` is not in their recorded set. -/
def Calls (sep : SepSet α) (en : Finset α) (G : MG α) (a b c : α) : Prop :=
  b ∈ en ∧ G.Und a b ∧ a ≠ c ∧ ¬ G.PAdj a c ∧ ∃ S, sep.get a c = .ok S ∧ b ∉ S

theorem orientNew_exact (o : SetOrder α) (sep : SepSet α) (en : Finset α) {G : MG α} (hG : G.PdagWF)
    (hkey : ∀ i ∈ G.nodes, ∀ j ∈ G.nodes, i ≠ j → ∃ S, sep.get i j = .ok S) :
    ∃ G', orientNew o sep en G = .ok G' ∧ MG.Ori en G G' ∧
      ∀ a b, G'.Arrow a b ↔ G.Arrow a b ∨ ∃ c, G.Und c b ∧ Calls sep en G a b c := by
  have key : ∃ G', orientNew o sep en G = .ok G' ∧ (MG.Ori en G G' ∧
      (∀ a b, G'.Arrow a b → G.Arrow a b ∨ ∃ c, G.Und c b ∧ Calls sep en G a b c) ∧
      ∀ b ∈ [] ++ o.iter 0 en, ∀ a c, G.Und c b → Calls sep en G a b c → G'.Arrow a b) := by
    refine foldlM_ok_inv (f := fun (H : MG α) z => (pairs (o.iter z (G.und z))).foldlM (fun (H : MG α) (xy : α × α) => do
        if ← H.isConnected xy.1 xy.2 then return H
        let S ← sep.get xy.1 xy.2
        if z ∉ S then return (H.orientEdge xy.1 z).orientEdge xy.2 z
        else return H) H) (fun done H => MG.Ori en G H ∧
          (∀ a b, H.Arrow a b → G.Arrow a b ∨ ∃ c, G.Und c b ∧ Calls sep en G a b c) ∧
          ∀ b ∈ done, ∀ a c, G.Und c b → Calls sep en G a b c → H.Arrow a b) (o.iter 0 en) [] G
      ⟨MG.Ori.refl hG, fun _ _ h => Or.inl h, by simp⟩ ?_
    rintro done z H hz ⟨hH, hH2, hH3⟩
    have hz' := (o.mem _ _ _).mp hz
    have inner := foldlM_ok_inv (f := fun (H : MG α) (xy : α × α) => do
        if ← H.isConnected xy.1 xy.2 then return H
        let S ← sep.get xy.1 xy.2
        if z ∉ S then return (H.orientEdge xy.1 z).orientEdge xy.2 z
        else return H) (fun d K => MG.Ori en G K ∧
          (∀ a b, K.Arrow a b → G.Arrow a b ∨ ∃ c, G.Und c b ∧ Calls sep en G a b c) ∧
          (∀ a b, H.Arrow a b → K.Arrow a b) ∧
          ∀ x y, (x, y) ∈ d → ¬ G.PAdj x y → (∃ S, sep.get x y = .ok S ∧ z ∉ S) → K.Arrow x z ∧ K.Arrow y z)
        (pairs (o.iter z (G.und z))) [] H ⟨hH, hH2, fun _ _ h => h, by simp⟩ ?_
    · obtain ⟨K, k1, k2, k3, k4, k5⟩ := inner
      refine ⟨K, k1, k2, k3, ?_⟩
      intro b hb a c hc hcalls
      rcases List.mem_append.mp hb with hb | hb
      · exact k4 _ _ (hH3 b hb a c hc hcalls)
      · rw [List.mem_singleton] at hb
        subst hb
        obtain ⟨-, ha, hne, hadj, S, hS, hbS⟩ := hcalls
        rw [List.nil_append] at k5
        rcases mem_pairs_or ((o.mem b (G.und b) a).mpr ha) ((o.mem b (G.und b) c).mpr hc) hne with h | h
        · exact (k5 a c h hadj ⟨S, hS, hbS⟩).1
        · exact (k5 c a h (fun h => hadj h.symm) ⟨S, by rw [SepSet.get_comm]; exact hS, hbS⟩).2
    · rintro d ⟨x, y⟩ K hxy ⟨hK, hK2, hK3, hK4⟩
      have hx : G.Und x z := (o.mem _ _ _).mp (mem_pairs_left hxy)
      have hy : G.Und y z := (o.mem _ _ _).mp (mem_pairs_right hxy)
      have hne := mem_pairs_ne (o.nodup _ _) hxy
      obtain ⟨S, hS⟩ := hkey x (hG.mem _ _ _ hx).1 y (hG.mem _ _ _ hy).1 hne
      obtain ⟨b, hb, hb'⟩ := MG.isConnected_spec hK.wf hne
      rw [hK.adj] at hb'
      have keep : (G.PAdj x y ∨ z ∈ S) → ∀ x' y', (x', y') ∈ d ++ [(x, y)] → ¬ G.PAdj x' y' →
          (∃ S, sep.get x' y' = .ok S ∧ z ∉ S) → K.Arrow x' z ∧ K.Arrow y' z := by
        intro hor x' y' hm hn hs
        rcases List.mem_append.mp hm with hm | hm
        · exact hK4 x' y' hm hn hs
        · rw [List.mem_singleton, Prod.mk.injEq] at hm
          obtain ⟨rfl, rfl⟩ := hm
          obtain ⟨S', hS', hz⟩ := hs
          rw [hS] at hS'
          cases hS'
          exact (hor.elim hn hz).elim
      cases b with
      | true => exact ⟨K, by simp only [hb]; rfl, hK, hK2, hK3, keep (Or.inl (hb'.mp rfl))⟩
      | false =>
        have hnadj : ¬ G.PAdj x y := fun h => by have := hb'.mpr h; cases this
        by_cases hzS : z ∈ S
        · exact ⟨K, by simp [hb, hS, bind, Except.bind, hzS]; rfl, hK, hK2, hK3, keep (Or.inr hzS)⟩
        · refine ⟨(K.orientEdge x z).orientEdge y z, by simp [hb, hS, bind, Except.bind, hzS]; rfl,
            (hK.orient hG hx hz').orient hG hy hz', ?_, ?_, ?_⟩
          · intro a b hab
            rw [MG.orientEdge_arrow, MG.orientEdge_arrow] at hab
            rcases hab with (hab | ⟨rfl, rfl⟩) | ⟨rfl, rfl⟩
            · exact hK2 a b hab
            · exact Or.inr ⟨y, hy, hz', hx, hne, hnadj, S, hS, hzS⟩
            · exact Or.inr ⟨x, hx, hz', hy, hne.symm, fun h => hnadj h.symm, S, by rw [SepSet.get_comm]; exact hS, hzS⟩
          · intro a b hab
            rw [MG.orientEdge_arrow, MG.orientEdge_arrow]
            exact Or.inl (Or.inl (hK3 a b hab))
          · intro x' y' hm hn hs
            rw [MG.orientEdge_arrow, MG.orientEdge_arrow, MG.orientEdge_arrow, MG.orientEdge_arrow]
            rcases List.mem_append.mp hm with hm | hm
            · obtain ⟨h1, h2⟩ := hK4 x' y' hm hn hs
              exact ⟨Or.inl (Or.inl h1), Or.inl (Or.inl h2)⟩
            · rw [List.mem_singleton, Prod.mk.injEq] at hm
              obtain ⟨rfl, rfl⟩ := hm
              exact ⟨Or.inl (Or.inr ⟨rfl, rfl⟩), Or.inr ⟨rfl, rfl⟩⟩
  obtain ⟨G', h1, h2, h3, h4⟩ := key
  refine ⟨G', h1, h2, fun a b => ⟨h3 a b, ?_⟩⟩
  rintro (h | ⟨c, hc, h⟩)
  · exact h2.keep a b h
  · exact h4 b (by simpa using (o.mem _ _ _).mpr h.1) a c hc h

theorem orientWithParent_exact (o : SetOrder α) (sep : SepSet α) (en : Finset α) {G : MG α} (hG : G.PdagWF)
    (hkey : ∀ i ∈ G.nodes, ∀ j ∈ G.nodes, i ≠ j → ∃ S, sep.get i j = .ok S) :
    ∃ G', orientWithParent o sep en G = .ok G' ∧ MG.Ori en G G' ∧
      ∀ a b, G'.Arrow a b ↔ G.Arrow a b ∨ ∃ c, G.Arrow c b ∧ Calls sep en G a b c := by
  let Sound (K : MG α) : Prop := ∀ a b, K.Arrow a b → G.Arrow a b ∨ ∃ c, G.Arrow c b ∧ Calls sep en G a b c
  have key : ∃ G', orientWithParent o sep en G = .ok G' ∧ (MG.Ori en G G' ∧ Sound G' ∧
      ∀ b ∈ [] ++ o.iter 1 en, ∀ a c, G.Arrow c b → Calls sep en G a b c → G'.Arrow a b) := by
    refine foldlM_ok_inv (f := fun (H : MG α) z => (o.iter (z, 0) (G.und z)).foldlM (fun (H : MG α) x =>
      (o.iter (z, 1) (G.parents z)).foldlM (fun (H : MG α) y => do
        if ← H.isConnected x y then return H
        let S ← sep.get x y
        if z ∉ S then return H.orientEdge x z
        else return H) H) H) (fun done H => MG.Ori en G H ∧ Sound H ∧
          ∀ b ∈ done, ∀ a c, G.Arrow c b → Calls sep en G a b c → H.Arrow a b) (o.iter 1 en) [] G
      ⟨MG.Ori.refl hG, fun _ _ h => Or.inl h, by simp⟩ ?_
    rintro done z H hz ⟨hH, hH2, hH3⟩
    have hz' := (o.mem _ _ _).mp hz
    have inner := foldlM_ok_inv (f := fun (H : MG α) x => (o.iter (z, 1) (G.parents z)).foldlM (fun (H : MG α) y => do
        if ← H.isConnected x y then return H
        let S ← sep.get x y
        if z ∉ S then return H.orientEdge x z
        else return H) H) (fun d K => MG.Ori en G K ∧ Sound K ∧ (∀ a b, H.Arrow a b → K.Arrow a b) ∧
          ∀ x ∈ d, ∀ c, G.Arrow c z → Calls sep en G x z c → K.Arrow x z)
        (o.iter (z, 0) (G.und z)) [] H ⟨hH, hH2, fun _ _ h => h, by simp⟩ ?_
    · obtain ⟨K, k1, k2, k3, k4, k5⟩ := inner
      refine ⟨K, k1, k2, k3, ?_⟩
      intro b hb a c hc hcalls
      rcases List.mem_append.mp hb with hb | hb
      · exact k4 _ _ (hH3 b hb a c hc hcalls)
      · rw [List.mem_singleton] at hb
        subst hb
        rw [List.nil_append] at k5
        exact k5 a ((o.mem _ _ _).mpr hcalls.2.1) c hc hcalls
    · rintro d x K hx ⟨hK, hK2, hK3, hK4⟩
      have hx' : G.Und x z := (o.mem _ _ _).mp hx
      have inner2 := foldlM_ok_inv (f := fun (H : MG α) y => do
        if ← H.isConnected x y then return H
        let S ← sep.get x y
        if z ∉ S then return H.orientEdge x z
        else return H) (fun e L => MG.Ori en G L ∧ Sound L ∧ (∀ a b, K.Arrow a b → L.Arrow a b) ∧
          ∀ c ∈ e, Calls sep en G x z c → L.Arrow x z)
        (o.iter (z, 1) (G.parents z)) [] K ⟨hK, hK2, fun _ _ h => h, by simp⟩ ?_
      · obtain ⟨L, l1, l2, l3, l4, l5⟩ := inner2
        refine ⟨L, l1, l2, l3, fun a b h => l4 a b (hK3 a b h), ?_⟩
        intro x' hm c hc hcalls
        rcases List.mem_append.mp hm with hm | hm
        · exact l4 _ _ (hK4 x' hm c hc hcalls)
        · rw [List.mem_singleton] at hm
          subst hm
          exact l5 c (List.mem_append_right _ ((o.mem _ (G.parents z) _).mpr hc)) hcalls
      · rintro e y L hy ⟨hL, hL2, hL3, hL4⟩
        have hy' : G.Arrow y z := (o.mem _ _ _).mp hy
        have hne : x ≠ y := by rintro rfl; exact hG.excl _ _ hy' hx'
        obtain ⟨S, hS⟩ := hkey x (hG.mem _ _ _ hx').1 y (hG.mem _ _ _ hy').1 hne
        obtain ⟨b, hb, hb'⟩ := MG.isConnected_spec hL.wf hne
        rw [hL.adj] at hb'
        have keep : (G.PAdj x y ∨ z ∈ S) → ∀ c ∈ e ++ [y], Calls sep en G x z c → L.Arrow x z := by
          intro hor c hm hcalls
          rcases List.mem_append.mp hm with hm | hm
          · exact hL4 c hm hcalls
          · rw [List.mem_singleton] at hm
            subst hm
            obtain ⟨-, -, -, hn, S', hS', hz⟩ := hcalls
            rw [hS] at hS'
            cases hS'
            exact (hor.elim hn hz).elim
        cases b with
        | true => exact ⟨L, by simp only [hb]; rfl, hL, hL2, hL3, keep (Or.inl (hb'.mp rfl))⟩
        | false =>
          have hnadj : ¬ G.PAdj x y := fun h => by have := hb'.mpr h; cases this
          by_cases hzS : z ∈ S
          · exact ⟨L, by simp [hb, hS, bind, Except.bind, hzS]; rfl, hL, hL2, hL3, keep (Or.inr hzS)⟩
          · refine ⟨L.orientEdge x z, by simp [hb, hS, bind, Except.bind, hzS]; rfl, hL.orient hG hx' hz', ?_, ?_, ?_⟩
            · intro a b hab
              rcases MG.orientEdge_arrow.mp hab with hab | ⟨rfl, rfl⟩
              · exact hL2 a b hab
              · exact Or.inr ⟨y, hy', hz', hx', hne, hnadj, S, hS, hzS⟩
            · exact fun a b hab => MG.orientEdge_arrow.mpr (Or.inl (hL3 a b hab))
            · exact fun c _ _ => MG.orientEdge_arrow.mpr (Or.inr ⟨rfl, rfl⟩)
  obtain ⟨G', h1, h2, h3, h4⟩ := key
  refine ⟨G', h1, h2, fun a b => ⟨h3 a b, ?_⟩⟩
  rintro (h | ⟨c, hc, h⟩)
  · exact h2.keep a b h
  · exact h4 b (by simpa using (o.mem _ _ _).mpr h.1) a c hc h

theorem orientVStructures_exact (o : SetOrder α) (sep : SepSet α) (en : Finset α) {G : MG α} (hG : G.PdagWF)
    (hkey : ∀ i ∈ G.nodes, ∀ j ∈ G.nodes, i ≠ j → ∃ S, sep.get i j = .ok S) :
    ∃ G', orientVStructures o sep en G = .ok G' ∧ G'.PdagWF ∧ (∀ a b, G'.PAdj a b ↔ G.PAdj a b) ∧
      ∀ a b, G'.Arrow a b ↔ G.Arrow a b ∨ (∃ c, G.Und c b ∧ Calls sep en G a b c) ∨
        ((¬ ∃ c, G.Und c a ∧ Calls sep en G b a c) ∧ ∃ c, G.Arrow c b ∧ Calls sep en G a b c) := by
  obtain ⟨G1, h1, o1, e1⟩ := orientNew_exact o sep en hG hkey
  obtain ⟨G2, h2, o2, e2⟩ := orientWithParent_exact o sep en o1.wf (by rw [o1.nodes]; exact hkey)
  refine ⟨G2, (py_bind h1 _).trans h2, o2.wf, (o1.trans o2).adj, fun a b => ?_⟩
  rw [e2, e1]
  have hund : ∀ a b, G1.Und a b ↔ G.Und a b ∧ ¬ G1.Arrow a b ∧ ¬ G1.Arrow b a := by
    intro a b
    constructor
    · exact fun h => ⟨o1.und _ _ h, fun h' => o1.wf.excl _ _ h' h, fun h' => o1.wf.excl _ _ h' (o1.wf.symm _ _ h)⟩
    · rintro ⟨h, n1, n2⟩
      rcases (o1.adj a b).mpr (Or.inr (Or.inr (Or.inl h))) with h | h | h | h
      · exact absurd h n1
      · exact absurd h n2
      · exact h
      · exact o1.wf.symm _ _ h
  constructor
  · rintro ((h | h) | ⟨c, hc, hb, hu, hne, hn, S, hS, hbS⟩)
    · exact Or.inl h
    · exact Or.inr (Or.inl h)
    · rw [hund] at hu
      have hn' : ¬ G.PAdj a c := fun h => hn ((o1.adj _ _).mpr h)
      rcases (e1 c b).mp hc with hc | ⟨_, _, hc⟩
      · exact Or.inr (Or.inr ⟨fun h => hu.2.2 ((e1 b a).mpr (Or.inr h)), c, hc, hb, hu.1, hne, hn', S, hS, hbS⟩)
      · exact Or.inr (Or.inl ⟨c, hc.2.1, hb, hu.1, hne, hn', S, hS, hbS⟩)
  · rintro (h | h | ⟨h, c, hc, hb, hu, hne, hn, S, hS, hbS⟩)
    · exact Or.inl (Or.inl h)
    · exact Or.inl (Or.inr h)
    · by_cases hab : G1.Arrow a b
      · exact Or.inl ((e1 a b).mp hab)
      · refine Or.inr ⟨c, (e1 c b).mpr (Or.inl hc), hb, (hund a b).mpr ⟨hu, hab, ?_⟩, hne,
          fun h => hn ((o1.adj _ _).mp h), S, hS, hbS⟩
        intro hba
        rcases (e1 b a).mp hba with hba | hba
        · exact hG.excl _ _ hba (hG.symm _ _ hu)
        · exact h hba

end Rai
end Verif
