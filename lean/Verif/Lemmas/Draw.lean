import Verif.Spec.Draw
import Verif.Lemmas.Layout
import Verif.Lemmas.Mixed
import Verif.Lemmas.MixedEdit

/-!
# Lemmas about drawings
-/

namespace Verif
namespace Draw
variable {α : Type} [DecidableEq α]

/-- A loop that appends to a list. -/
theorem foldlM_append_spec {β γ : Type} (f : List γ → β → Py (List γ)) (h : β → List γ) : ∀ (l : List β) (acc : List γ),
    (∀ b ∈ l, ∀ acc, f acc b = .ok (acc ++ h b)) → l.foldlM f acc = .ok (acc ++ l.flatMap h) := by
  intro l
  induction l with
  | nil => intro acc _; simp [pure, Except.pure]
  | cons b l ih =>
    intro acc hf
    rw [List.foldlM_cons, py_bind (hf b (by simp) acc), ih _ (fun b hb => hf b (by simp [hb]))]
    simp

theorem sqrt_zero_iff (p q : Vec) : Real.sqrt ((q.1 - p.1) ^ 2 + (q.2 - p.2) ^ 2) = 0 ↔ p = q := by
  rw [Real.sqrt_eq_zero (by positivity)]
  constructor
  · intro h
    have h1 : q.1 - p.1 = 0 := by nlinarith [sq_nonneg (q.1 - p.1), sq_nonneg (q.2 - p.2)]
    have h2 : q.2 - p.2 = 0 := by nlinarith [sq_nonneg (q.1 - p.1), sq_nonneg (q.2 - p.2)]
    exact Prod.ext (by linarith) (by linarith)
  · rintro rfl; simp

theorem toward_start {p q : Vec} (h : p ≠ q) (c : ℝ) : Toward p q c
    (p.1 + c * ((q.1 - p.1) / Real.sqrt ((q.1 - p.1) ^ 2 + (q.2 - p.2) ^ 2)),
      p.2 + c * ((q.2 - p.2) / Real.sqrt ((q.1 - p.1) ^ 2 + (q.2 - p.2) ^ 2))) := by
  have hd : Real.sqrt ((q.1 - p.1) ^ 2 + (q.2 - p.2) ^ 2) ≠ 0 := fun h0 => h ((sqrt_zero_iff p q).mp h0)
  have hd0 := Real.sqrt_nonneg ((q.1 - p.1) ^ 2 + (q.2 - p.2) ^ 2)
  have hd2 : Real.sqrt ((q.1 - p.1) ^ 2 + (q.2 - p.2) ^ 2) ^ 2 = (q.1 - p.1) ^ 2 + (q.2 - p.2) ^ 2 := Real.sq_sqrt (by positivity)
  generalize Real.sqrt ((q.1 - p.1) ^ 2 + (q.2 - p.2) ^ 2) = d at *
  refine ⟨?_, c / d, fun hc => div_nonneg hc.le hd0, ?_⟩
  · unfold sqDist
    simp only
    have : ((q.1 - p.1) ^ 2 + (q.2 - p.2) ^ 2) / d ^ 2 = 1 := by rw [← hd2]; field_simp
    calc _ = c ^ 2 * (((q.1 - p.1) ^ 2 + (q.2 - p.2) ^ 2) / d ^ 2) := by field_simp; ring
      _ = c ^ 2 := by rw [this, mul_one]
  · refine Prod.ext ?_ ?_ <;> simp only <;> field_simp

theorem toward_end {p q : Vec} (h : p ≠ q) (c : ℝ) : Toward q p c
    (q.1 - c * ((q.1 - p.1) / Real.sqrt ((q.1 - p.1) ^ 2 + (q.2 - p.2) ^ 2)),
      q.2 - c * ((q.2 - p.2) / Real.sqrt ((q.1 - p.1) ^ 2 + (q.2 - p.2) ^ 2))) := by
  have := toward_start (Ne.symm h) c
  have e : (p.1 - q.1) ^ 2 + (p.2 - q.2) ^ 2 = (q.1 - p.1) ^ 2 + (q.2 - p.2) ^ 2 := by ring
  rw [e] at this
  have e1 : ∀ a b c d : ℝ, a - c * ((a - b) / d) = a + c * ((b - a) / d) := by intros; ring
  rw [e1, e1]
  exact this

/-- `draw_edge` on numbers of `numpy` or for different points. -/
theorem drawEdge_spec (np : Bool) (p0 p1 : Vec) (r : ℝ) (m0 m1 : Option Mark) (color : String) (text : Option String) (curved : Bool)
    (h : p0 ≠ p1 ∨ (np = true ∧ curved = false)) :
    ∃ e, drawEdge np p0 p1 r m0 m1 color text curved = .ok e ∧ e.style = edgeStyle m0 m1 ∧ e.color = edgeColor m0 m1 color ∧
      e.circ0 = decide (m0 = some .circle) ∧ e.circ1 = decide (m1 = some .circle) ∧ e.text = text ∧ e.Joins r p0 p1 ∧
      (curved = false → e.rad = 0) ∧ (curved = true → e.rad ^ 2 * sqDist p0 p1 = (4 * r) ^ 2) := by
  have hr : ∃ k, edgeRad p0 p1 r curved = .ok k ∧ (curved = false → k = 0) ∧ (curved = true → k ^ 2 * sqDist p0 p1 = (4 * r) ^ 2) := by
    unfold edgeRad
    cases curved with
    | false => exact ⟨0, by simp, by simp, by simp⟩
    | true =>
      have hne : p0 ≠ p1 := by simpa using h
      simp only [if_true]
      rw [if_neg (fun h0 => hne ((sqrt_zero_iff p0 p1).mp h0))]
      refine ⟨_, rfl, by simp, fun _ => ?_⟩
      have hd : Real.sqrt ((p1.1 - p0.1) ^ 2 + (p1.2 - p0.2) ^ 2) ≠ 0 := fun h0 => hne ((sqrt_zero_iff p0 p1).mp h0)
      have hd2 : Real.sqrt ((p1.1 - p0.1) ^ 2 + (p1.2 - p0.2) ^ 2) ^ 2 = (p1.1 - p0.1) ^ 2 + (p1.2 - p0.2) ^ 2 :=
        Real.sq_sqrt (by positivity)
      have e : sqDist p0 p1 = Real.sqrt ((p1.1 - p0.1) ^ 2 + (p1.2 - p0.2) ^ 2) ^ 2 := by rw [hd2]; unfold sqDist; ring
      rw [e]
      field_simp
  obtain ⟨k, hk, hk1, hk2⟩ := hr
  by_cases hp : p0 = p1
  · have hnp : np = true := (h.resolve_left (fun h' => h' hp)).1
    have he : edgeEnds np p0 p1 r m0 m1 = .ok none := by
      unfold edgeEnds
      simp only
      rw [if_pos ((sqrt_zero_iff p0 p1).mpr hp), if_pos hnp]
    refine ⟨⟨none, edgeStyle m0 m1, edgeColor m0 m1 color, k, decide (m0 = some .circle), decide (m1 = some .circle), r / 4, text⟩, ?_,
      rfl, rfl, rfl, rfl, rfl, ⟨rfl, fun _ => rfl, fun h => absurd hp h⟩, hk1, hk2⟩
    unfold drawEdge
    rw [py_bind he, py_bind hk]
    rfl
  · have hoff : ∀ m : Option Mark, (if decide (m = some Mark.circle) = true then r + r / 4 else r) = offset r m := by
      intro m
      unfold offset
      by_cases hm : m = some .circle <;> simp [hm, add_comm]
    have he : ∃ a b, edgeEnds np p0 p1 r m0 m1 = .ok (some (a, b)) ∧ Toward p0 p1 (offset r m0) a ∧ Toward p1 p0 (offset r m1) b := by
      unfold edgeEnds
      simp only
      rw [if_neg (fun h0 => hp ((sqrt_zero_iff p0 p1).mp h0))]
      exact ⟨_, _, rfl, toward_start hp _, toward_end hp _⟩
    obtain ⟨a, b, he, ha, hb⟩ := he
    refine ⟨⟨some (a, b), edgeStyle m0 m1, edgeColor m0 m1 color, k, decide (m0 = some .circle), decide (m1 = some .circle), r / 4, text⟩,
      ?_, rfl, rfl, rfl, rfl, rfl, ⟨rfl, fun h => absurd h hp, fun _ => ⟨a, b, rfl, ?_, ?_⟩⟩, hk1, hk2⟩
    · unfold drawEdge
      rw [py_bind he, py_bind hk]
      rfl
    · rw [← hoff] at ha
      exact ha
    · rw [← hoff] at hb
      exact hb

/-- Style and circles show the marks. -/
theorem style_marks (m0 m1 : Mark) : let e : EdgeShape := ⟨none, edgeStyle (some m0) (some m1), "", 0, decide (some m0 = some .circle),
      decide (some m1 = some .circle), 0, none⟩
    e.markStart = m0 ∧ e.markEnd = m1 ∧ e.Clear := by
  cases m0 <;> cases m1 <;> simp [EdgeShape.markStart, EdgeShape.markEnd, EdgeShape.Clear, edgeStyle, Style.headStart, Style.headEnd]

theorem color_marks (m0 m1 : Mark) {c : String} (hc : c.toLower = "auto") : edgeColor (some m0) (some m1) c = colorOf m0 m1 := by
  cases m0 <;> cases m1 <;> simp [edgeColor, colorOf, hc]

theorem shape_marks {e : EdgeShape} {m0 m1 : Mark} (h1 : e.style = edgeStyle (some m0) (some m1))
    (h2 : e.circ0 = decide (some m0 = some Mark.circle)) (h3 : e.circ1 = decide (some m1 = some Mark.circle)) :
    e.markStart = m0 ∧ e.markEnd = m1 ∧ e.Clear := by
  have := style_marks m0 m1
  unfold EdgeShape.markStart EdgeShape.markEnd EdgeShape.Clear at *
  rw [h1, h2, h3]
  exact this

theorem mapPos_spec (o : SetOrder α) (N : Finset α) (f : Vec → Vec) {pos : α → Option Vec} (hp : ∀ v ∈ N, (pos v).isSome) :
    ∃ pos', mapPos o N f pos = .ok pos' ∧ ∀ v, pos' v = if v ∈ N then (pos v).map f else pos v := by
  have key : ∀ (l : List α) (cur : α → Option Vec), l.Nodup → (∀ v ∈ l, (cur v).isSome) →
      ∃ pos', l.foldlM (fun (pos : α → Option Vec) v => (do
        let p ← getPos pos v
        return setPos pos v (f p) : Py (α → Option Vec))) cur = .ok pos' ∧ ∀ v, pos' v = if v ∈ l then (cur v).map f else cur v := by
    intro l
    induction l with
    | nil => intro cur _ _; exact ⟨cur, rfl, by simp⟩
    | cons a l ih =>
      intro cur hn hc
      obtain ⟨p, hpa⟩ := Option.isSome_iff_exists.mp (hc a (by simp))
      rw [List.nodup_cons] at hn
      obtain ⟨pos', h1, h2⟩ := ih (setPos cur a (f p)) hn.2 (fun v hv => setPos_isSome (hc v (by simp [hv])))
      refine ⟨pos', ?_, fun v => ?_⟩
      · rw [List.foldlM_cons, py_bind (show _ = Except.ok (setPos cur a (f p)) from by rw [py_bind (getPos_ok hpa)]; rfl)]
        exact h1
      · rw [h2 v]
        by_cases hva : v = a
        · subst hva
          simp [hn.1, setPos, hpa]
        · simp [setPos, hva]
  obtain ⟨pos', h1, h2⟩ := key (o.iter () N) pos (o.nodup _ _) (fun v hv => hp v ((o.mem _ _ _).mp hv))
  refine ⟨pos', h1, fun v => ?_⟩
  rw [h2 v]
  simp only [o.mem]

theorem mem_pairs_of {β : Type} : ∀ {l : List β} {a b : β}, (a, b) ∈ pairs l → a ∈ l ∧ b ∈ l := by
  intro l
  induction l with
  | nil => intro a b h; simp [pairs] at h
  | cons x l ih =>
    intro a b h
    simp only [pairs, List.mem_append, List.mem_map] at h
    rcases h with ⟨y, hy, h⟩ | h
    · cases h
      exact ⟨by simp, by simp [hy]⟩
    · exact ⟨by simp [(ih h).1], by simp [(ih h).2]⟩

theorem pairs_once {β : Type} : ∀ {l : List β}, l.Nodup → (pairs l).Nodup ∧ (∀ a b, (a, b) ∈ pairs l → a ≠ b ∧ (b, a) ∉ pairs l) ∧
    ∀ a b, a ∈ l → b ∈ l → a ≠ b → (a, b) ∈ pairs l ∨ (b, a) ∈ pairs l := by
  intro l
  induction l with
  | nil => intro _; simp [pairs]
  | cons x l ih =>
    intro hn
    rw [List.nodup_cons] at hn
    obtain ⟨h1, h2, h3⟩ := ih hn.2
    refine ⟨?_, ?_, ?_⟩
    · rw [pairs, List.nodup_append]
      refine ⟨hn.2.map (fun a b h => (Prod.mk.inj h).2), h1, ?_⟩
      intro p hp q hq hpq
      subst hpq
      obtain ⟨y, -, rfl⟩ := List.mem_map.mp hp
      exact hn.1 (mem_pairs_of hq).1
    · intro a b hab
      simp only [pairs, List.mem_append, List.mem_map] at hab ⊢
      rcases hab with ⟨y, hy, h⟩ | hab
      · cases h
        refine ⟨fun h => hn.1 (h ▸ hy), ?_⟩
        rintro (⟨z, hz, h⟩ | h)
        · cases h
          exact hn.1 hz
        · exact hn.1 (mem_pairs_of h).2
      · refine ⟨(h2 a b hab).1, ?_⟩
        rintro (⟨z, hz, h⟩ | h)
        · cases h
          exact hn.1 (mem_pairs_of hab).2
        · exact (h2 a b hab).2 h
    · intro a b ha hb hab
      simp only [pairs, List.mem_append, List.mem_map]
      rcases List.mem_cons.mp ha with ha' | ha'
      · rcases List.mem_cons.mp hb with hb' | hb'
        · exact absurd (ha'.trans hb'.symm) hab
        · exact Or.inl (Or.inl ⟨b, hb', by rw [ha']⟩)
      · rcases List.mem_cons.mp hb with hb' | hb'
        · exact Or.inr (Or.inl ⟨a, ha', by rw [hb']⟩)
        · exact (h3 a b ha' hb' hab).imp Or.inr Or.inr

/-- A loop that appends to a list; what is appended depends on the element only. -/
theorem foldlM_append_ex {β γ : Type} {f : List γ → β → Py (List γ)} {P : β → List γ → Prop} {l : List β} (acc : List γ)
    (hf : ∀ b ∈ l, ∃ c, (∀ acc, f acc b = .ok (acc ++ c)) ∧ P b c) :
    ∃ h : β → List γ, l.foldlM f acc = .ok (acc ++ l.flatMap h) ∧ ∀ b ∈ l, P b (h b) := by
  classical
  refine ⟨fun b => if hb : b ∈ l then (hf b hb).choose else [], foldlM_append_spec f _ l acc ?_, ?_⟩
  · intro b hb acc
    simp only [dif_pos hb]
    exact (hf b hb).choose_spec.1 acc
  · intro b hb
    simp only [dif_pos hb]
    exact (hf b hb).choose_spec.2

/-- The drawn node `v`. -/
def NodeOk (latent selection : Finset α) (pos : α → Option Vec) (r : ℝ) (bk fg : String) (labels : α → Option Label) (v : α)
    (s : NodeShape) : Prop :=
  pos v = some s.center ∧ s.radius = r ∧ labels v = some s.label ∧ s.line = fg ∧
    s.contour = (if v ∈ latent ∨ v ∈ selection then .rectangle else .circle) ∧
    s.fill = (if v ∈ latent then fg else bk) ∧ s.textColor = (if v ∈ latent then bk else fg)

theorem drawNodes_spec (o : SetOrder α) {N : Finset α} (latent selection : Finset α) {pos : α → Option Vec} (r : ℝ) (bk fg : String)
    {labels : α → Option Label} (hp : ∀ v ∈ N, (pos v).isSome) (hl : ∀ v ∈ N, ∃ l, labels v = some l ∧ l ≠ .other) :
    ∃ ns, drawNodes o N latent selection pos r bk fg labels = .ok ns ∧ ns.map Prod.fst = o.iter () N ∧
      ∀ x ∈ ns, NodeOk latent selection pos r bk fg labels x.1 x.2 := by
  have hs : ∀ v ∈ o.iter () N, ∃ s : NodeShape, NodeOk latent selection pos r bk fg labels v s ∧ ∀ acc : List (α × NodeShape), (do
      let p ← getPos pos v
      let lab ← match labels v with
        | some l => pure l
        | none => throw PyErr.keyError
      let s ← if v ∈ latent then drawNode p r fg fg bk lab .rectangle
        else if v ∈ selection then drawNode p r fg bk fg lab .rectangle
        else drawNode p r fg bk fg lab .circle
      return acc ++ [(v, s)] : Py (List (α × NodeShape))) = .ok (acc ++ [(v, s)]) := by
    intro v hv
    have hv := (o.mem _ _ _).mp hv
    obtain ⟨p, hpv⟩ := Option.isSome_iff_exists.mp (hp v hv)
    obtain ⟨l, hlv, hlo⟩ := hl v hv
    refine ⟨⟨p, r, if v ∈ latent ∨ v ∈ selection then .rectangle else .circle, fg, if v ∈ latent then fg else bk,
      if v ∈ latent then bk else fg, l⟩, ⟨hpv, rfl, hlv, rfl, rfl, rfl, rfl⟩, fun acc => ?_⟩
    rw [py_bind (getPos_ok hpv), hlv]
    simp only [drawNode, pure_bind, if_neg hlo]
    by_cases h1 : v ∈ latent
    · simp only [h1, if_true, true_or]; rfl
    · by_cases h2 : v ∈ selection
      · simp only [h1, h2, if_true, if_false, or_true]; rfl
      · simp only [h1, h2, if_false, or_self]; rfl
  obtain ⟨h, h1, h2⟩ := foldlM_append_ex (P := fun v c => ∃ s, c = [(v, s)] ∧ NodeOk latent selection pos r bk fg labels v s) []
    (fun v hv => by
      obtain ⟨s, hs1, hs2⟩ := hs v hv
      exact ⟨[(v, s)], hs2, s, rfl, hs1⟩)
  refine ⟨_, h1, ?_, ?_⟩
  · rw [List.nil_append, List.map_flatMap]
    have : ∀ l : List α, (∀ v ∈ l, (h v).map Prod.fst = [v]) → l.flatMap (fun v => (h v).map Prod.fst) = l := by
      intro l
      induction l with
      | nil => intro _; rfl
      | cons a l ih =>
        intro hh
        rw [List.flatMap_cons, hh a (by simp), ih (fun v hv => hh v (by simp [hv]))]
        rfl
    refine this _ (fun v hv => ?_)
    obtain ⟨s, hs, -⟩ := h2 v hv
    rw [hs]; rfl
  · intro x hx
    rw [List.nil_append, List.mem_flatMap] at hx
    obtain ⟨v, hv, hx⟩ := hx
    obtain ⟨s, hs, hok⟩ := h2 v hv
    rw [hs, List.mem_singleton] at hx
    subst hx
    exact hok

/-- The drawn edge between `i` and `j` of a PAG. -/
def PagEdgeOk (G : MG α) (visible : Option (Finset (α × α))) (pos : α → Option Vec) (r : ℝ) (color : String) (i j : α) (c : Bool)
    (e : EdgeShape) : Prop :=
  G.At j i e.markStart ∧ G.At i j e.markEnd ∧ e.Clear ∧ (color.toLower = "auto" → e.color = colorOf e.markStart e.markEnd) ∧
    (color.toLower ≠ "auto" → e.color = color) ∧ e.text = visibleText visible i j ∧
    (∃ p q, pos i = some p ∧ pos j = some q ∧ e.Joins r p q ∧ (c = true → e.rad ^ 2 * sqDist p q = (4 * r) ^ 2)) ∧
    (c = false → e.rad = 0)

theorem drawPagEdges_spec (o : SetOrder α) {G : MG α} (hG : G.Proper) (visible : Option (Finset (α × α))) {pos : α → Option Vec} (r : ℝ)
    (color : String) {skip : α → α → Bool} (hsk : ∀ a b, skip a b = skip b a) {curved : α → α → Py Bool}
    (hp : ∀ v ∈ G.nodes, (pos v).isSome)
    (hc : ∀ i ∈ G.nodes, ∀ j ∈ G.nodes, i ≠ j → ∃ c, curved i j = .ok c ∧ (c = true → pos i ≠ pos j)) :
    ∃ es, drawPagEdges o G visible pos r color skip curved = .ok es ∧
      DrawnOnce (es.map Prod.fst) (fun a b => G.MAdj a b ∧ skip a b = false) ∧
      ∀ x ∈ es, ∃ c, curved x.1.1 x.1.2 = .ok c ∧ PagEdgeOk G visible pos r color x.1.1 x.1.2 c x.2 := by
  have hN := o.nodup () G.nodes
  obtain ⟨q1, q2, q3⟩ := pairs_once hN
  let P : α × α → List ((α × α) × EdgeShape) → Prop := fun ij l =>
    ((¬ G.MAdj ij.1 ij.2 ∨ skip ij.1 ij.2 = true) ∧ l = []) ∨ ((G.MAdj ij.1 ij.2 ∧ skip ij.1 ij.2 = false) ∧
      ∃ e c, l = [(ij, e)] ∧ curved ij.1 ij.2 = .ok c ∧ PagEdgeOk G visible pos r color ij.1 ij.2 c e)
  obtain ⟨h, h1, h2⟩ := foldlM_append_ex (P := P) (l := pairs (o.iter () G.nodes)) (f := fun acc ij => (do
    if skip ij.1 ij.2 then return acc
    if ← G.isConnected ij.1 ij.2 then
      let c ← curved ij.1 ij.2
      let p0 ← getPos pos ij.1
      let p1 ← getPos pos ij.2
      let e ← drawEdge true p0 p1 r (G.getEdgeMark ij.2 ij.1) (G.getEdgeMark ij.1 ij.2) color (visibleText visible ij.1 ij.2) c
      return acc ++ [(ij, e)]
    else return acc)) [] (by
    rintro ⟨i, j⟩ hij
    have hij' := mem_pairs_of hij
    have hne := (q2 i j hij).1
    have hi := (o.mem () G.nodes i).mp hij'.1
    have hj := (o.mem () G.nodes j).mp hij'.2
    simp only
    by_cases hs : skip i j = true
    · refine ⟨[], fun acc => ?_, Or.inl ⟨Or.inr hs, rfl⟩⟩
      rw [if_pos hs, List.append_nil]; rfl
    have hs' : skip i j = false := by simpa using hs
    obtain ⟨b, hb1, hb2⟩ := MG.proper_isConnected hG.type hne
    by_cases hadj : G.MAdj i j
    · have hbt : b = true := hb2.mpr hadj
      subst hbt
      obtain ⟨m1, hm1⟩ := hG.adj_iff.mp hadj
      obtain ⟨m0, hm0⟩ := hG.adj_iff.mp hadj.symm
      obtain ⟨c, hcc, hct⟩ := hc i hi j hj hne
      obtain ⟨p, hpi⟩ := Option.isSome_iff_exists.mp (hp i hi)
      obtain ⟨q, hqj⟩ := Option.isSome_iff_exists.mp (hp j hj)
      obtain ⟨e, e1, e2, e3, e4, e5, e6, e7, e8, e9⟩ := drawEdge_spec true p q r (some m0) (some m1) color (visibleText visible i j) c (by
        cases c with
        | false => exact Or.inr ⟨rfl, rfl⟩
        | true => exact Or.inl (fun h => hct rfl (by rw [hpi, hqj, h])))
      obtain ⟨s1, s2, s3⟩ := shape_marks e2 e4 e5
      refine ⟨[((i, j), e)], fun acc => ?_, Or.inr ⟨⟨hadj, hs'⟩, e, c, rfl, hcc, ?_⟩⟩
      · rw [if_neg hs, py_bind hb1]
        simp only [if_true]
        rw [py_bind hcc, py_bind (getPos_ok hpi), py_bind (getPos_ok hqj), (MG.getEdgeMark_spec hG).mpr hm0,
          (MG.getEdgeMark_spec hG).mpr hm1, py_bind e1]
        rfl
      · refine ⟨by rw [s1]; exact hm0, by rw [s2]; exact hm1, s3, fun h => ?_, fun h => ?_, e6, ⟨p, q, hpi, hqj, e7, e9⟩, e8⟩
        · rw [e3, color_marks _ _ h, s1, s2]
        · rw [e3]; simp [edgeColor, h]
    · have hbf : b = false := by
        cases b with
        | false => rfl
        | true => exact absurd (hb2.mp rfl) hadj
      subst hbf
      refine ⟨[], fun acc => ?_, Or.inl ⟨Or.inl hadj, rfl⟩⟩
      rw [if_neg hs, py_bind hb1, List.append_nil]
      rfl)
  have hmem : ∀ a b, (a, b) ∈ (((pairs (o.iter () G.nodes)).flatMap h).map Prod.fst) ↔
      (a, b) ∈ pairs (o.iter () G.nodes) ∧ G.MAdj a b ∧ skip a b = false := by
    intro a b
    simp only [List.mem_map, List.mem_flatMap]
    constructor
    · rintro ⟨x, ⟨ij, hij, hx⟩, hxe⟩
      rcases h2 ij hij with ⟨-, hn⟩ | ⟨hr, e, c, hn, -⟩
      · rw [hn] at hx; simp at hx
      · rw [hn, List.mem_singleton] at hx
        subst hx
        simp only at hxe
        subst hxe
        exact ⟨hij, hr⟩
    · rintro ⟨hij, hr⟩
      rcases h2 (a, b) hij with ⟨hn, -⟩ | ⟨-, e, c, hn, -⟩
      · rcases hn with hn | hn
        · exact absurd hr.1 hn
        · rw [hr.2] at hn; cases hn
      · exact ⟨((a, b), e), ⟨(a, b), hij, by rw [hn]; simp⟩, rfl⟩
  refine ⟨_, h1, ⟨?_, ?_, ?_⟩, ?_⟩
  · rw [List.nil_append]
    have key : ∀ l : List (α × α), (∀ ij ∈ l, P ij (h ij)) → l.Nodup → ((l.flatMap h).map Prod.fst).Sublist l := by
      intro l
      induction l with
      | nil => intro _ _; simp
      | cons ij l ih =>
        intro hP hn
        rw [List.nodup_cons] at hn
        have := ih (fun x hx => hP x (by simp [hx])) hn.2
        rw [List.flatMap_cons, List.map_append]
        rcases hP ij (by simp) with ⟨-, hl⟩ | ⟨-, e, c, hl, -⟩
        · rw [hl]
          exact this.cons _
        · rw [hl]
          exact this.cons_cons _
    exact (key _ h2 q1).nodup q1
  · intro a b hab
    rw [List.nil_append] at hab ⊢
    rw [hmem] at hab ⊢
    exact fun hba => (q2 a b hab.1).2 hba.1
  · intro a b
    rw [List.nil_append, hmem, hmem]
    constructor
    · rintro (⟨-, h⟩ | ⟨-, h⟩)
      · exact h
      · exact ⟨h.1.symm, by rw [hsk]; exact h.2⟩
    · intro hr
      obtain ⟨m, hm⟩ := hG.adj_iff.mp hr.1
      have hab := hG.mem _ _ _ hm
      have hne : a ≠ b := by rintro rfl; exact hG.irrefl _ _ hm
      rcases q3 a b ((o.mem _ _ _).mpr hab.1) ((o.mem _ _ _).mpr hab.2) hne with h' | h'
      · exact Or.inl ⟨h', hr⟩
      · exact Or.inr ⟨h', hr.1.symm, by rw [hsk]; exact hr.2⟩
  · intro x hx
    rw [List.nil_append, List.mem_flatMap] at hx
    obtain ⟨ij, hij, hx⟩ := hx
    rcases h2 ij hij with ⟨-, hn⟩ | ⟨-, e, c, hn, hcc, hok⟩
    · rw [hn] at hx; simp at hx
    · rw [hn, List.mem_singleton] at hx
      subst hx
      exact ⟨c, hcc, hok⟩

/-- The drawn edge from `i` to `j` of a DAG. -/
def DagEdgeOk (pos : α → Option Vec) (r : ℝ) (color : String) (i j : α) (c : Bool) (e : EdgeShape) : Prop :=
  e.markStart = .tail ∧ e.markEnd = .arrow ∧ e.Clear ∧ e.color = (if color = "auto" then "black" else color) ∧ e.text = none ∧
    (∃ p q, pos i = some p ∧ pos j = some q ∧ e.Joins r p q ∧ (c = true → e.rad ^ 2 * sqDist p q = (4 * r) ^ 2)) ∧
    (c = false → e.rad = 0)

theorem drawDagEdges_spec (o : SetOrder α) {D : Dag α} (hD : D.WF) {pos : α → Option Vec} (r : ℝ) (color : String)
    (skip : α → α → Bool) (curved : Bool) (hp : ∀ v ∈ D.nodes, (pos v).isSome)
    (hc : curved = true → ∀ i j, i ∈ D.par j → pos i ≠ pos j) :
    ∃ es, drawDagEdges o D pos r color skip curved = .ok es ∧ (es.map Prod.fst).Nodup ∧
      (∀ a b, (a, b) ∈ es.map Prod.fst ↔ D.Edge a b ∧ skip a b = false) ∧
      ∀ x ∈ es, DagEdgeOk pos r color x.1.1 x.1.2 curved x.2 := by
  classical
  let P : α → α → List ((α × α) × EdgeShape) → Prop := fun c p l =>
    (skip p c = true ∧ l = []) ∨ (skip p c = false ∧ ∃ e, l = [((p, c), e)] ∧ DagEdgeOk pos r color p c curved e)
  let Q : α → List ((α × α) × EdgeShape) → Prop := fun c l =>
    (l.map Prod.fst).Sublist ((o.iter c (D.par c)).map (fun p => (p, c))) ∧
    (∀ a b, (a, b) ∈ l.map Prod.fst ↔ b = c ∧ a ∈ D.par c ∧ skip a c = false) ∧
    ∀ x ∈ l, DagEdgeOk pos r color x.1.1 x.1.2 curved x.2
  have inner : ∀ c ∈ o.iter () D.nodes, ∃ l, (∀ acc : List ((α × α) × EdgeShape), (do
      (o.iter c (← D.parents c)).foldlM (fun acc p => do
        if skip p c then return acc
        let p0 ← getPos pos p
        let p1 ← getPos pos c
        let e ← drawEdge true p0 p1 r none none (if color = "auto" then "black" else color) none curved
        return acc ++ [((p, c), e)]) acc : Py (List ((α × α) × EdgeShape))) = .ok (acc ++ l)) ∧ Q c l := by
    intro c hcN
    have hcN := (o.mem _ _ _).mp hcN
    obtain ⟨q, hqc⟩ := Option.isSome_iff_exists.mp (hp c hcN)
    have hstep : ∀ p ∈ o.iter c (D.par c), ∃ l, (∀ acc : List ((α × α) × EdgeShape), (do
        if skip p c then return acc
        let p0 ← getPos pos p
        let p1 ← getPos pos c
        let e ← drawEdge true p0 p1 r none none (if color = "auto" then "black" else color) none curved
        return acc ++ [((p, c), e)] : Py (List ((α × α) × EdgeShape))) = .ok (acc ++ l)) ∧ P c p l := by
      intro p hpc
      have hpc := (o.mem _ _ _).mp hpc
      obtain ⟨p0, hp0⟩ := Option.isSome_iff_exists.mp (hp p (hD p c hpc).1)
      by_cases hs : skip p c = true
      · refine ⟨[], fun acc => ?_, Or.inl ⟨hs, rfl⟩⟩
        rw [if_pos hs, List.append_nil]; rfl
      have hs' : skip p c = false := by simpa using hs
      obtain ⟨e, e1, e2, e3, e4, e5, e6, e7, e8, e9⟩ := drawEdge_spec true p0 q r none none (if color = "auto" then "black" else color)
        none curved (by
          cases curved with
          | false => exact Or.inr ⟨rfl, rfl⟩
          | true => exact Or.inl (fun h => hc rfl p c hpc (by rw [hp0, hqc, h])))
      refine ⟨[((p, c), e)], fun acc => ?_, Or.inr ⟨hs', e, rfl, ?_, ?_, ?_, ?_, e6, ⟨p0, q, hp0, hqc, e7, e9⟩, e8⟩⟩
      · rw [if_neg hs, py_bind (getPos_ok hp0), py_bind (getPos_ok hqc), py_bind e1]
        rfl
      · simp [EdgeShape.markStart, e2, e4, edgeStyle, Style.headStart]
      · simp [EdgeShape.markEnd, e2, edgeStyle, Style.headEnd]
      · simp [EdgeShape.Clear, e4, e5]
      · rw [e3]; simp [edgeColor]
    have hpar : D.parents c = .ok (D.par c) := by unfold Dag.parents; rw [if_pos hcN]
    have hall : ∃ h : α → List ((α × α) × EdgeShape), (∀ p ∈ o.iter c (D.par c), P c p (h p)) ∧
        ∀ p ∈ o.iter c (D.par c), ∀ acc : List ((α × α) × EdgeShape), (do
        if skip p c then return acc
        let p0 ← getPos pos p
        let p1 ← getPos pos c
        let e ← drawEdge true p0 p1 r none none (if color = "auto" then "black" else color) none curved
        return acc ++ [((p, c), e)] : Py (List ((α × α) × EdgeShape))) = .ok (acc ++ h p) := by
      refine ⟨fun p => if hb : p ∈ o.iter c (D.par c) then (hstep p hb).choose else [], ?_, ?_⟩
      · intro b hb
        simp only [dif_pos hb]
        exact (hstep b hb).choose_spec.2
      · intro b hb acc
        simp only [dif_pos hb]
        exact (hstep b hb).choose_spec.1 acc
    obtain ⟨h, hP, hf⟩ := hall
    refine ⟨(o.iter c (D.par c)).flatMap h, fun acc => ?_, ?_, ?_, ?_⟩
    · rw [py_bind hpar]
      exact foldlM_append_spec _ h _ acc hf
    · have key : ∀ l : List α, (∀ p ∈ l, P c p (h p)) → ((l.flatMap h).map Prod.fst).Sublist (l.map (fun p => (p, c))) := by
        intro l
        induction l with
        | nil => intro _; simp
        | cons p l ih =>
          intro hl
          have := ih (fun x hx => hl x (by simp [hx]))
          rw [List.flatMap_cons, List.map_append, List.map_cons]
          rcases hl p (by simp) with ⟨-, hn⟩ | ⟨-, e, hn, -⟩
          · rw [hn]; exact this.cons _
          · rw [hn]; exact this.cons_cons _
      exact key _ hP
    · intro a b
      simp only [List.mem_map, List.mem_flatMap]
      constructor
      · rintro ⟨x, ⟨p, hpm, hx⟩, hxe⟩
        rcases hP p hpm with ⟨-, hn⟩ | ⟨hs, e, hn, -⟩
        · rw [hn] at hx; simp at hx
        · rw [hn, List.mem_singleton] at hx
          subst hx
          cases hxe
          exact ⟨rfl, (o.mem _ _ _).mp hpm, hs⟩
      · rintro ⟨rfl, ha, hs⟩
        rcases hP a ((o.mem _ _ _).mpr ha) with ⟨hs', -⟩ | ⟨-, e, hn, -⟩
        · rw [hs] at hs'; cases hs'
        · exact ⟨((a, b), e), ⟨a, (o.mem _ _ _).mpr ha, by rw [hn]; simp⟩, rfl⟩
    · intro x hx
      obtain ⟨p, hpm, hx⟩ := List.mem_flatMap.mp hx
      rcases hP p hpm with ⟨-, hn⟩ | ⟨-, e, hn, hok⟩
      · rw [hn] at hx; simp at hx
      · rw [hn, List.mem_singleton] at hx
        subst hx
        exact hok
  obtain ⟨h, h1, h2⟩ := foldlM_append_ex (P := Q) [] inner
  refine ⟨_, h1, ?_, ?_, ?_⟩
  · rw [List.nil_append, List.map_flatMap, List.nodup_flatMap]
    refine ⟨fun c hcm => ((h2 c hcm).1.nodup ((o.nodup _ _).map (fun a b hab => (Prod.mk.inj hab).1))), ?_⟩
    have := o.nodup () D.nodes
    refine List.Pairwise.imp_of_mem ?_ this
    intro c c' hcm hcm' hne x hx hx'
    obtain ⟨a, b⟩ := x
    have e1 := ((h2 c hcm).2.1 a b).mp hx
    have e2 := ((h2 c' hcm').2.1 a b).mp hx'
    exact hne (e1.1.symm.trans e2.1)
  · intro a b
    rw [List.nil_append, List.map_flatMap, List.mem_flatMap]
    constructor
    · rintro ⟨c, hcm, hx⟩
      obtain ⟨rfl, e1, e2⟩ := ((h2 c hcm).2.1 a b).mp hx
      exact ⟨e1, e2⟩
    · rintro ⟨e1, e2⟩
      have hb := (o.mem () D.nodes b).mpr (hD a b e1).2
      exact ⟨b, hb, ((h2 b hb).2.1 a b).mpr ⟨rfl, e1, e2⟩⟩
  · intro x hx
    rw [List.nil_append, List.mem_flatMap] at hx
    obtain ⟨c, hcm, hx⟩ := hx
    exact (h2 c hcm).2.2 x hx

end Draw
end Verif
