import Verif.Lemmas.VermaPearl
import Verif.Spec.Rename

/-!
# Renaming nodes
-/

namespace Verif
namespace Dag
open Relation
variable {α β : Type} {f : α → β} {g : β → α} {D H : Dag α} {E : Dag β}

theorem Renamed.symm (h : Renamed f g D E) : Renamed g f E D :=
  ⟨h.mapg, h.mapf, h.right, h.left, fun a ha b hb => by
    rw [← h.edge _ (h.mapg a ha) _ (h.mapg b hb), h.right a ha, h.right b hb]⟩

theorem Renamed.edge' (h : Renamed f g D E) (hD : D.WF) {a b : α} (he : D.Edge a b) : E.Edge (f a) (f b) :=
  (h.edge a (hD a b he).1 b (hD a b he).2).mpr he

theorem Renamed.inj (h : Renamed f g D E) {a b : α} (ha : a ∈ D.nodes) (hb : b ∈ D.nodes) (hf : f a = f b) : a = b := by
  rw [← h.left a ha, hf, h.left b hb]

theorem Renamed.dpath (h : Renamed f g D E) (hD : D.WF) {a b : α} (hp : D.DPath a b) : E.DPath (f a) (f b) :=
  ReflTransGen.lift f (fun _ _ => h.edge' hD) _ _ hp

theorem Renamed.acyclic (h : Renamed f g D E) (hE : E.WF) (hac : D.Acyclic) : E.Acyclic := fun v hv =>
  hac (g v) (TransGen.lift g (fun _ _ => h.symm.edge' hE) _ _ hv)

theorem Renamed.adj (h : Renamed f g D E) {a b : α} (ha : a ∈ D.nodes) (hb : b ∈ D.nodes) : E.Adj (f a) (f b) ↔ D.Adj a b :=
  or_congr (h.edge a ha b hb) (h.edge b hb a ha)

theorem Renamed.ucol (h : Renamed f g D E) {a b c : α} (ha : a ∈ D.nodes) (hb : b ∈ D.nodes) (hc : c ∈ D.nodes) :
    E.UCol (f a) (f b) (f c) ↔ D.UCol a b c := by
  simp only [UCol, h.edge a ha b hb, h.edge c hc b hb, h.adj ha hc]
  have : f a ≠ f c ↔ a ≠ c := not_congr ⟨fun h' => h.inj ha hc h', fun h' => h' ▸ rfl⟩
  rw [this]

variable [DecidableEq α] [DecidableEq β]

/-- The same DAG under new names (used in proofs only). -/
def renamed (f : α → β) (g : β → α) (N : Finset β) (D : Dag α) : Dag β :=
  ⟨N, fun b => if b ∈ N then (D.par (g b)).image f else ∅⟩

omit [DecidableEq α] in
/-- Another DAG over the same nodes can be renamed in the same way. -/
theorem Renamed.other (h : Renamed f g D E) (hn : H.nodes = D.nodes) (hH : H.WF) :
    Renamed f g H (H.renamed f g E.nodes) ∧ (H.renamed f g E.nodes).WF := by
  refine ⟨⟨fun a ha => h.mapf a (hn ▸ ha), fun b hb => hn ▸ h.mapg b hb, fun a ha => h.left a (hn ▸ ha), h.right, fun a ha b hb => ?_⟩,
    fun a b hab => ?_⟩
  · have hb' := h.mapf b (hn ▸ hb)
    simp only [Edge, renamed, if_pos hb', h.left b (hn ▸ hb), Finset.mem_image]
    constructor
    · rintro ⟨c, hc, he⟩
      rwa [← h.inj (hn ▸ (hH c b hc).1) (hn ▸ ha) he]
    · exact fun he => ⟨a, he, rfl⟩
  · simp only [renamed] at hab ⊢
    split at hab
    · next hb =>
      obtain ⟨c, hc, rfl⟩ := Finset.mem_image.mp hab
      exact ⟨h.mapf c (hn ▸ (hH _ _ hc).1), hb⟩
    · simp at hab

omit [DecidableEq α] in
/-- Renaming keeps Markov equivalence. -/
theorem Renamed.equivalent (h : Renamed f g D E) (hE : E.WF) (he : D.Equivalent H) :
    E.Equivalent (H.renamed f g E.nodes) := by
  obtain ⟨r, w⟩ := h.other he.nodes he.wf
  have key : ∀ b ∈ E.nodes, ∃ a ∈ D.nodes, f a = b := fun b hb => ⟨g b, h.mapg b hb, h.right b hb⟩
  have hadj : ∀ a b, (H.renamed f g E.nodes).Adj a b ↔ E.Adj a b := by
    intro a b
    have hm : a ∈ E.nodes ∧ b ∈ E.nodes → ((H.renamed f g E.nodes).Adj a b ↔ E.Adj a b) := by
      rintro ⟨ha, hb⟩
      obtain ⟨x, hx, rfl⟩ := key a ha
      obtain ⟨y, hy, rfl⟩ := key b hb
      rw [r.adj (he.nodes ▸ hx) (he.nodes ▸ hy), h.adj hx hy, he.adj]
    constructor
    · intro h'
      exact (hm (h'.elim (fun h => w a b h) (fun h => (w b a h).symm))).mp h'
    · intro h'
      exact (hm (h'.elim (fun h => hE a b h) (fun h => (hE b a h).symm))).mpr h'
  refine ⟨rfl, w, r.acyclic w he.acyclic, hadj, fun a b c => ?_⟩
  have hm : a ∈ E.nodes → b ∈ E.nodes → c ∈ E.nodes → ((H.renamed f g E.nodes).UCol a b c ↔ E.UCol a b c) := by
    intro ha hb hc
    obtain ⟨x, hx, rfl⟩ := key a ha
    obtain ⟨y, hy, rfl⟩ := key b hb
    obtain ⟨z, hz, rfl⟩ := key c hc
    rw [r.ucol (he.nodes ▸ hx) (he.nodes ▸ hy) (he.nodes ▸ hz), h.ucol hx hy hz, he.ucol]
  constructor
  · intro h'
    exact (hm (w _ _ h'.1).1 (w _ _ h'.1).2 (w _ _ h'.2.1).1).mp h'
  · intro h'
    exact (hm (hE _ _ h'.1).1 (hE _ _ h'.1).2 (hE _ _ h'.2.1).1).mpr h'

/-- The compelled edges are renamed. -/
theorem Renamed.compelled (h : Renamed f g D E) (hD : D.WF) (hE : E.WF) {a b : α} (ha : a ∈ D.nodes) (hb : b ∈ D.nodes) :
    (∀ K : Dag β, E.Equivalent K → K.Edge (f a) (f b)) ↔ ∀ H : Dag α, D.Equivalent H → H.Edge a b := by
  constructor
  · intro hk H he
    obtain ⟨r, -⟩ := h.other he.nodes he.wf
    exact (r.edge a (he.nodes ▸ ha) b (he.nodes ▸ hb)).mp (hk _ (h.equivalent hE he))
  · intro hh K he
    obtain ⟨r, -⟩ := h.symm.other he.nodes he.wf
    have := hh _ (h.symm.equivalent hD he)
    have e := (r.edge (f a) (he.nodes ▸ h.mapf a ha) (f b) (he.nodes ▸ h.mapf b hb)).mp
    rw [h.left a ha, h.left b hb] at e
    exact e this

omit [DecidableEq α] in
theorem Renamed.moralConn (h : Renamed f g D E) (hD : D.WF) {Z : Finset α} (hZ : Z ⊆ D.nodes) {i j : α}
    (hc : D.MoralConn Z i j) : E.MoralConn (Z.image f) (f i) (f j) := by
  have hw : ∀ {c : α}, (∃ w, (w = i ∨ w = j ∨ w ∈ Z) ∧ D.DPath c w) → ∃ w, (w = f i ∨ w = f j ∨ w ∈ Z.image f) ∧ E.DPath (f c) w := by
    rintro c ⟨w, h1, h2⟩
    refine ⟨f w, ?_, h.dpath hD h2⟩
    rcases h1 with rfl | rfl | h1
    · exact Or.inl rfl
    · exact Or.inr (Or.inl rfl)
    · exact Or.inr (Or.inr (Finset.mem_image_of_mem f h1))
  refine ReflTransGen.lift f ?_ _ _ hc
  rintro a b ⟨h1, h2, h3⟩
  have hb : b ∈ D.nodes := by
    rcases h1 with (h1 | h1) | ⟨c, -, h1, -⟩
    · exact (hD _ _ h1).2
    · exact (hD _ _ h1).1
    · exact (hD _ _ h1).1
  refine ⟨?_, hw h2, fun hm => ?_⟩
  · rcases h1 with (h1 | h1) | ⟨c, k1, k2, k3⟩
    · exact Or.inl (Or.inl (h.edge' hD h1))
    · exact Or.inl (Or.inr (h.edge' hD h1))
    · exact Or.inr ⟨f c, h.edge' hD k1, h.edge' hD k2, hw k3⟩
  · obtain ⟨z, hz, he⟩ := Finset.mem_image.mp hm
    rw [h.inj (hZ hz) hb he] at hz
    exact h3 hz

theorem Renamed.moralConn_iff (h : Renamed f g D E) (hD : D.WF) (hE : E.WF) {Z : Finset α} (hZ : Z ⊆ D.nodes) {i j : α}
    (hi : i ∈ D.nodes) (hj : j ∈ D.nodes) : E.MoralConn (Z.image f) (f i) (f j) ↔ D.MoralConn Z i j := by
  refine ⟨fun hc => ?_, h.moralConn hD hZ⟩
  have hZ' : Z.image f ⊆ E.nodes := fun x hx => by
    obtain ⟨z, hz, rfl⟩ := Finset.mem_image.mp hx
    exact h.mapf z (hZ hz)
  have := h.symm.moralConn hE hZ' hc
  have hzz : (Z.image f).image g = Z := by
    ext x
    simp only [Finset.mem_image]
    constructor
    · rintro ⟨y, ⟨z, hz, rfl⟩, rfl⟩
      rwa [h.left z (hZ hz)]
    · exact fun hx => ⟨f x, ⟨x, hx, rfl⟩, h.left x (hZ hx)⟩
  rwa [hzz, h.left i hi, h.left j hj] at this

end Dag
end Verif
