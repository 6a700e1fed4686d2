import Verif.Lemmas.Rename
import Verif.Lemmas.Perf
import Verif.Lemmas.Score

/-!
# Renaming and the measures
-/

namespace Verif
variable {α β : Type} [DecidableEq α] [DecidableEq β] {f : α → β}

omit [DecidableEq α] in
theorem cnt_image {S : Finset α} (hf : ∀ a ∈ S, ∀ b ∈ S, f a = f b → a = b) {Q : α → α → Prop} {Q' : β → β → Prop}
    (hQ : ∀ a ∈ S, ∀ b ∈ S, Q' (f a) (f b) ↔ Q a b) : cnt (S.image f) Q' = cnt S Q := by
  have e : {p : β × β | p.1 ∈ S.image f ∧ p.2 ∈ S.image f ∧ p.1 ≠ p.2 ∧ Q' p.1 p.2} =
      Prod.map f f '' {p : α × α | p.1 ∈ S ∧ p.2 ∈ S ∧ p.1 ≠ p.2 ∧ Q p.1 p.2} := by
    ext ⟨x, y⟩
    constructor
    · rintro ⟨h1, h2, h3, h4⟩
      obtain ⟨a, ha, rfl⟩ := Finset.mem_image.mp h1
      obtain ⟨b, hb, rfl⟩ := Finset.mem_image.mp h2
      exact ⟨(a, b), ⟨ha, hb, fun h => h3 (congrArg f h), (hQ a ha b hb).mp h4⟩, rfl⟩
    · rintro ⟨⟨a, b⟩, ⟨ha, hb, hab, h⟩, he⟩
      cases he
      exact ⟨Finset.mem_image_of_mem f ha, Finset.mem_image_of_mem f hb, fun h' => hab (hf a ha b hb h'), (hQ a ha b hb).mpr h⟩
  rw [cnt, cnt, e, Set.InjOn.ncard_image]
  rintro ⟨a, b⟩ ⟨ha, hb, -⟩ ⟨c, d⟩ ⟨hc, hd, -⟩ h
  have h1 : f a = f c := congrArg Prod.fst h
  have h2 : f b = f d := congrArg Prod.snd h
  rw [hf a ha c hc h1, hf b hb d hd h2]

namespace Score
variable {f g : Nat → Nat} {data data' : List (List Int)} {sizes sizes' : List Int} {ρ : List Int → List Int}

/-- Counting is not affected by renaming the columns and rearranging the records. -/
theorem countOf_renamed {S : Finset Nat} (hρ : ∀ r ∈ data, ∀ v ∈ S, (ρ r)[f v]? = r[v]?) (hd : data'.Perm (data.map ρ))
    (c : (v : Nat) → v ∈ S → Nat) (c' : (v : Nat) → v ∈ S.image f → Nat)
    (hc : ∀ v (h : v ∈ S), c' (f v) (Finset.mem_image_of_mem f h) = c v h) :
    countOf data' (S.image f) c' = countOf data S c := by
  classical
  rw [countOf, countOf, (hd.filter _).length_eq, List.filter_map, List.length_map]
  congr 1
  refine List.filter_congr (fun r hr => ?_)
  rw [Function.comp_apply, decide_eq_decide]
  constructor
  · intro h v hv
    rw [← hρ r hr v hv, h (f v) (Finset.mem_image_of_mem f hv), hc]
  · intro h w hw
    obtain ⟨v, hv, rfl⟩ := Finset.mem_image.mp hw
    rw [hρ r hr v hv, h v hv, ← hc v hv]

theorem alpha_renamed {S : Finset Nat} (hf : ∀ a ∈ S, ∀ b ∈ S, f a = f b → a = b)
    (hs : ∀ v ∈ S, sizes'.getD (f v) 0 = sizes.getD v 0) : alpha sizes' (S.image f) = alpha sizes S := by
  rw [alpha, alpha, Finset.prod_image (fun a ha b hb h => hf a ha b hb h)]
  congr 1
  exact Finset.prod_congr rfl (fun v hv => by rw [hs v hv])

/-- A sum over the configurations of a renamed set. -/
theorem sum_renamed {S : Finset Nat} (hg : ∀ v ∈ S, g (f v) = v) (hs : ∀ v ∈ S, sizes'.getD (f v) 0 = sizes.getD v 0)
    (hρ : ∀ r ∈ data, ∀ v ∈ S, (ρ r)[f v]? = r[v]?) (hd : data'.Perm (data.map ρ)) (φ : Nat → ℝ) :
    ∑ c ∈ configs sizes' (S.image f), φ (countOf data' (S.image f) c) = ∑ c ∈ configs sizes S, φ (countOf data S c) := by
  have hgm : ∀ w, w ∈ S.image f → g w ∈ S := by
    intro w hw
    obtain ⟨v, hv, rfl⟩ := Finset.mem_image.mp hw
    rw [hg v hv]; exact hv
  have hfg : ∀ w, w ∈ S.image f → f (g w) = w := by
    intro w hw
    obtain ⟨v, hv, rfl⟩ := Finset.mem_image.mp hw
    rw [hg v hv]
  have cast : ∀ {T : Finset Nat} (c : (v : Nat) → v ∈ T → Nat) {u v : Nat} (hu : u ∈ T) (hv : v ∈ T), u = v → c u hu = c v hv := by
    rintro T c u v hu hv rfl; rfl
  refine Finset.sum_bij' (fun c _ v hv => c (f v) (Finset.mem_image_of_mem f hv)) (fun c _ w hw => c (g w) (hgm w hw)) ?_ ?_ ?_ ?_ ?_
  · intro c hc
    rw [configs, Finset.mem_pi] at hc ⊢
    intro v hv
    rw [← hs v hv]
    exact hc (f v) _
  · intro c hc
    rw [configs, Finset.mem_pi] at hc ⊢
    intro w hw
    have := hc (g w) (hgm w hw)
    rwa [← hs _ (hgm w hw), hfg w hw] at this
  · intro c _
    funext w hw
    exact cast c _ _ (hfg w hw)
  · intro c _
    funext v hv
    exact cast c _ _ (hg v hv)
  · intro c _
    rw [countOf_renamed hρ hd (fun v hv => c (f v) (Finset.mem_image_of_mem f hv)) c (fun v h => rfl)]

/-- The score of the renamed DAG on the renamed data. -/
theorem bdeu_renamed (L : ℝ → ℝ) {D E : Dag Nat} (h : Dag.Renamed f g D E) (hD : D.WF) (hE : E.WF)
    (hs : ∀ v ∈ D.nodes, sizes'.getD (f v) 0 = sizes.getD v 0)
    (hρ : ∀ r ∈ data, ∀ v ∈ D.nodes, (ρ r)[f v]? = r[v]?) (hd : data'.Perm (data.map ρ)) :
    bdeu L data' sizes' E E.nodes = bdeu L data sizes D D.nodes := by
  have hinj : ∀ a ∈ D.nodes, ∀ b ∈ D.nodes, f a = f b → a = b := fun a ha b hb he => by
    rw [← h.left a ha, he, h.left b hb]
  have hn : E.nodes = D.nodes.image f := by
    ext w
    rw [Finset.mem_image]
    exact ⟨fun hw => ⟨g w, h.mapg w hw, h.right w hw⟩, by rintro ⟨v, hv, rfl⟩; exact h.mapf v hv⟩
  rw [bdeu, bdeu, hn, Finset.sum_image hinj]
  refine Finset.sum_congr rfl (fun v hv => ?_)
  have hpar : E.par (f v) = (D.par v).image f := by
    ext w
    rw [Finset.mem_image]
    constructor
    · intro hw
      have hm := hE w (f v) hw
      refine ⟨g w, ?_, h.right w hm.1⟩
      have : E.Edge (f (g w)) (f v) := by rw [h.right w hm.1]; exact hw
      exact (h.edge _ (h.mapg w hm.1) v hv).mp this
    · rintro ⟨u, hu, rfl⟩
      exact (h.edge u (hD u v hu).1 v hv).mpr hu
  have hsub : D.par v ⊆ D.nodes := fun u hu => (hD u v hu).1
  have hsub' : insert v (D.par v) ⊆ D.nodes := Finset.insert_subset hv hsub
  rw [bdeuTerm, bdeuTerm, hpar, ← Finset.image_insert,
    alpha_renamed (fun a ha b hb => hinj a (hsub ha) b (hsub hb)) (fun u hu => hs u (hsub hu)),
    alpha_renamed (fun a ha b hb => hinj a (hsub' ha) b (hsub' hb)) (fun u hu => hs u (hsub' hu)),
    sum_renamed (g := g) (sizes' := sizes') (data' := data') (fun u hu => h.left u (hsub hu)) (fun u hu => hs u (hsub hu))
      (fun r hr u hu => hρ r hr u (hsub hu)) hd (fun n => L (alpha sizes (D.par v)) - L (alpha sizes (D.par v) + n)),
    sum_renamed (g := g) (sizes' := sizes') (data' := data') (fun u hu => h.left u (hsub' hu)) (fun u hu => hs u (hsub' hu))
      (fun r hr u hu => hρ r hr u (hsub' hu)) hd
      (fun n => L (alpha sizes (insert v (D.par v)) + n) - L (alpha sizes (insert v (D.par v))))]

end Score
end Verif
