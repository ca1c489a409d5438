import Verif.Lemmas.RegionSegment
import Verif.Lemmas.Transversal

/-! How segments which may run along edges of a contour pass its points. -/

set_option linter.unusedSectionVars false

namespace Orient

open Segment

variable {K : Type} [Field K] [LinearOrder K] [IsStrictOrderedRing K]

/-- Where the contacts of a segment with others begin and end. -/
theorem exists_breaks (s : Segment K) (hs : s.Nondegenerate) (l : List (Segment K)) :
    ∃ L : List K, ∀ e ∈ l, ∀ t u, 0 ≤ t → t ≤ 1 → 0 ≤ u → u ≤ 1 → lerp s.start s.finish u ∈ e.pts →
      lerp s.start s.finish t ∉ e.pts → ∃ a ∈ L, a ≠ t ∧ |a - t| ≤ |u - t| := by
  induction l with
  | nil => exact ⟨[], fun e he => absurd he (by simp)⟩
  | cons e l ih =>
    obtain ⟨L, hL⟩ := ih
    suffices h : ∃ L : List K, ∀ t u, 0 ≤ t → t ≤ 1 → 0 ≤ u → u ≤ 1 → lerp s.start s.finish u ∈ e.pts →
        lerp s.start s.finish t ∉ e.pts → ∃ a ∈ L, a ≠ t ∧ |a - t| ≤ |u - t| by
      obtain ⟨L', hL'⟩ := h
      refine ⟨L' ++ L, fun f hf t u t0 t1 u0 u1 hu ht => ?_⟩
      rcases List.mem_cons.mp hf with rfl | hf
      · obtain ⟨a, ha, h⟩ := hL' t u t0 t1 u0 u1 hu ht
        exact ⟨a, by simp [ha], h⟩
      · obtain ⟨a, ha, h⟩ := hL f hf t u t0 t1 u0 u1 hu ht
        exact ⟨a, by simp [ha], h⟩
    by_cases hsub : (s.pts ∩ e.pts).Subsingleton
    · by_cases hne : ∃ u, 0 ≤ u ∧ u ≤ 1 ∧ lerp s.start s.finish u ∈ e.pts
      · obtain ⟨u₀, h0, h1, hm⟩ := hne
        refine ⟨[u₀], fun t u t0 t1 u0 u1 hu ht => ⟨u₀, by simp, ?_, ?_⟩⟩
        · rintro rfl; exact ht hm
        · rw [lerp_injective hs (hsub ⟨⟨u, u0, u1, rfl⟩, hu⟩ ⟨⟨u₀, h0, h1, rfl⟩, hm⟩)]
      · exact ⟨[], fun t u t0 t1 u0 u1 hu ht => absurd ⟨u, u0, u1, hu⟩ hne⟩
    · have hn := Set.not_subsingleton_iff.mp hsub
      have he : e.Nondegenerate := by
        intro he
        obtain ⟨x, hx, y, hy, hxy⟩ := hn
        have key : ∀ z ∈ e.pts, z = e.start := by
          rintro z ⟨r, -, -, rfl⟩
          rw [← he]
          refine Point.ext ?_ ?_ <;> simp only [lerp] <;> ring
        exact hxy ((key x hx.2).trans (key y hy.2).symm)
      obtain ⟨c1, c2⟩ : s.Collinear e := collinear_of_nontrivial he hn
      obtain ⟨α, hα⟩ := exists_lerp_of_cross_eq_zero hs c1
      obtain ⟨β, hβ⟩ := exists_lerp_of_cross_eq_zero hs c2
      have key : ∀ u, lerp s.start s.finish u ∈ e.pts ↔ (min α β ≤ u ∧ u ≤ max α β) := by
        intro u
        have hne : α ≠ β := by
          rintro rfl
          exact he (hα.trans hβ.symm)
        constructor
        · rintro ⟨r, r0, r1, hr⟩
          rw [hα, hβ, lerp_lerp] at hr
          rw [lerp_injective hs hr]
          constructor
          · rcases le_total α β with h | h
            · rw [min_eq_left h]; nlinarith
            · rw [min_eq_right h]; nlinarith
          · rcases le_total α β with h | h
            · rw [max_eq_right h]; nlinarith
            · rw [max_eq_left h]; nlinarith
        · rintro ⟨h0, h1⟩
          have hd : β - α ≠ 0 := sub_ne_zero.mpr (Ne.symm hne)
          refine ⟨(u - α) / (β - α), ?_, ?_, ?_⟩
          · rcases le_total α β with h | h
            · rw [min_eq_left h] at h0
              exact div_nonneg (by linarith) (by linarith)
            · rw [max_eq_left h] at h1
              exact div_nonneg_of_nonpos (by linarith) (by linarith)
          · rcases lt_or_gt_of_ne hne with h | h
            · rw [max_eq_right h.le] at h1
              rw [div_le_one (by linarith)]; linarith
            · rw [min_eq_right h.le] at h0
              rw [div_le_one_of_neg (by linarith)]; linarith
          · rw [hα, hβ, lerp_lerp]
            congr 1
            field_simp
            ring
      refine ⟨[min α β, max α β], fun t u t0 t1 u0 u1 hu ht => ?_⟩
      rw [key] at hu ht
      by_cases h : min α β ≤ t
      · have h' : max α β < t := by
          by_contra h'
          exact ht ⟨h, not_lt.mp h'⟩
        refine ⟨max α β, by simp, h'.ne, ?_⟩
        rw [abs_of_neg (by linarith), abs_of_nonpos (by linarith)]
        linarith
      · push Not at h
        refine ⟨min α β, by simp, h.ne', ?_⟩
        rw [abs_of_pos (by linarith), abs_of_nonneg (by linarith)]
        linarith

/-- Near to a point of a segment only the edges through that point are met. -/
theorem exists_near_edges {s : Segment K} (hs : s.Nondegenerate) (l : List (Segment K)) {t : K} (t0 : 0 ≤ t)
    (t1 : t ≤ 1) : ∃ δ, 0 < δ ∧ ∀ e ∈ l, ∀ u, 0 ≤ u → u ≤ 1 → |u - t| ≤ δ → lerp s.start s.finish u ∈ e.pts →
      lerp s.start s.finish t ∈ e.pts := by
  obtain ⟨L, hL⟩ := exists_breaks s hs l
  obtain ⟨δ, d0, hδ⟩ := exists_isolated L t
  refine ⟨δ, d0, fun e he u u0 u1 hu hue => ?_⟩
  by_contra ht
  obtain ⟨a, ha, hne, hle⟩ := hL e he t u t0 t1 u0 u1 hue ht
  exact absurd (hδ a ha hne) (not_lt.mpr (hle.trans hu))

/-- What is seen from a point at which the segment does not run along edges. -/
theorem exists_seen_near {s : Segment K} (hs : s.Nondegenerate) {c : Contour K} {t : K} (t0 : 0 ≤ t)
    (t1 : t ≤ 1) (hsub : ∀ e ∈ c.edgeList, lerp s.start s.finish t ∈ e.pts → (s.pts ∩ e.pts).Subsingleton) :
    ∃ δ, 0 < δ ∧ ∀ u, 0 ≤ u → u ≤ 1 → |u - t| ≤ δ →
      Seen c (lerp s.start s.finish t) (lerp s.start s.finish u) := by
  obtain ⟨δ, d0, hδ⟩ := exists_near_edges hs c.edgeList t0 t1
  refine ⟨δ, d0, fun u u0 u1 hu => ?_⟩
  rintro z ⟨r, r0, r1, hz⟩ hne ⟨e, he, hze⟩
  simp only at hz
  rw [lerp_lerp] at hz
  rw [hz] at hze hne
  have k0 : 0 ≤ t + r * (u - t) := by nlinarith
  have k1 : t + r * (u - t) ≤ 1 := by nlinarith
  have k2 : |t + r * (u - t) - t| ≤ δ := by
    rw [add_sub_cancel_left, abs_mul, abs_of_nonneg r0]
    exact (mul_le_of_le_one_left (abs_nonneg (u - t)) r1).trans hu
  have hte := hδ e he _ k0 k1 k2 hze
  exact hne (hsub e he hte ⟨⟨_, k0, k1, rfl⟩, hze⟩ ⟨⟨t, t0, t1, rfl⟩, hte⟩)

theorem Contour.Simple.edges_at_inner {c : Contour K} (hc : c.Simple) {e f : Segment K} (he : e ∈ c.edgeList)
    (hf : f ∈ c.edgeList) {p : Point K} (hp : p ∈ e.pts) (hend : ¬ e.IsEndpoint p) (hpf : p ∈ f.pts) :
    f = e := by
  obtain ⟨i, hi⟩ := List.mem_iff_getElem?.mp he
  obtain ⟨j, hj⟩ := List.mem_iff_getElem?.mp hf
  by_cases hij : i = j
  · subst hij; rw [hi] at hj; exact (Option.some.inj hj).symm
  · exact absurd (hc.meet_getElem hi hj hij hp hpf).1 hend

/-- The segment crosses an edge or separates the neighbours of a vertex. -/
def CrossesEdges (c : Contour K) (s : Segment K) : Prop :=
  (∃ e ∈ c.edgeList, ∃ p, s.pts ∩ e.pts = {p} ∧ ¬ s.IsEndpoint p ∧ ¬ e.IsEndpoint p) ∨
    ∃ p v q, ⟨p, v⟩ ∈ c.edgeList ∧ ⟨v, q⟩ ∈ c.edgeList ∧ v ∈ s.pts ∧ ¬ s.IsEndpoint v ∧
      cross s.start s.finish p * cross s.start s.finish q < 0

theorem subsingleton_of_cross_ne {s e : Segment K} (he : e.Nondegenerate)
    (h : cross s.start s.finish e.start ≠ 0 ∨ cross s.start s.finish e.finish ≠ 0) :
    (s.pts ∩ e.pts).Subsingleton := by
  by_contra hn
  obtain ⟨h1, h2⟩ := collinear_of_nontrivial he (Set.not_subsingleton_iff.mp hn)
  rcases h with h | h
  · exact h h1
  · exact h h2

/-- Segments which cross edges or separate the neighbours of a vertex have points on both sides. -/
theorem Contour.Simple.crosses_edges {c : Contour K} (hc : c.Simple) {s : Segment K} (hs : s.Nondegenerate)
    (h : CrossesEdges c s) : (s.pts ∩ c.interior).Nonempty ∧ (s.pts ∩ c.exterior).Nonempty := by
  have key : ∀ p, p ∈ s.pts → ¬ s.IsEndpoint p →
      (∀ e ∈ c.edgeList, p ∈ e.pts → (s.pts ∩ e.pts).Subsingleton) →
      (∀ t δ, 0 < δ → 0 ≤ t - δ → t + δ ≤ 1 → p = lerp s.start s.finish t →
      Seen c p (lerp s.start s.finish (t - δ)) → Seen c p (lerp s.start s.finish (t + δ)) →
      (lerp s.start s.finish (t + δ) ∈ c.interior ↔ lerp s.start s.finish (t - δ) ∉ c.interior)) →
      (s.pts ∩ c.interior).Nonempty ∧ (s.pts ∩ c.exterior).Nonempty := by
    intro p hp hn hsub hk
    obtain ⟨t, t0, t1, rfl⟩ := Segment.inner_param hp hn
    obtain ⟨δ, d0, hδ⟩ := exists_seen_near hs t0.le t1.le hsub
    set η := min δ (min t (1 - t)) with hη
    have e0 : 0 < η := lt_min d0 (lt_min (by linarith) (by linarith))
    have e1 : η ≤ δ := min_le_left _ _
    have e2 : η ≤ t := (min_le_right _ _).trans (min_le_left _ _)
    have e3 : η ≤ 1 - t := (min_le_right _ _).trans (min_le_right _ _)
    have s1 := hδ (t - η) (by linarith) (by linarith)
      (by rw [sub_sub_cancel_left, abs_neg, abs_of_pos e0]; exact e1)
    have s2 := hδ (t + η) (by linarith) (by linarith)
      (by rw [add_sub_cancel_left, abs_of_pos e0]; exact e1)
    have n1 : lerp s.start s.finish (t - η) ∉ c.pts := s1 _ (Segment.finish_mem ⟨_, _⟩) fun h => by
      have := lerp_injective hs h; linarith
    have n2 : lerp s.start s.finish (t + η) ∉ c.pts := s2 _ (Segment.finish_mem ⟨_, _⟩) fun h => by
      have := lerp_injective hs h; linarith
    have m1 : lerp s.start s.finish (t - η) ∈ s.pts := ⟨_, by linarith, by linarith, rfl⟩
    have m2 : lerp s.start s.finish (t + η) ∈ s.pts := ⟨_, by linarith, by linarith, rfl⟩
    have := hk t η e0 (by linarith) (by linarith) rfl s1 s2
    by_cases hi : lerp s.start s.finish (t + η) ∈ c.interior
    · exact ⟨⟨_, m2, hi⟩, ⟨_, m1, (Contour.cover n1).resolve_left (this.mp hi)⟩⟩
    · have hi' : lerp s.start s.finish (t - η) ∈ c.interior := by
        by_contra h; exact hi (this.mpr h)
      exact ⟨⟨_, m1, hi'⟩, ⟨_, m2, (Contour.cover n2).resolve_left hi⟩⟩
  rcases h with ⟨e, he, p, hpe, hn, hend⟩ | ⟨a, v, b, ha, hb, hv, hn, hneg⟩
  · have hp : p ∈ s.pts ∩ e.pts := by rw [hpe]; rfl
    refine key p hp.1 hn (fun f hf hpf => ?_) fun t δ d0 h0 h1 hpt s1 s2 => ?_
    · rw [hc.edges_at_inner he hf hp.2 hend hpf, hpe]
      exact Set.subsingleton_singleton
    have hne : p ≠ lerp s.start s.finish (t + δ) := fun he => by
      have := lerp_injective hs (hpt.symm.trans he); linarith
    have hback : lerp p (lerp s.start s.finish (t + δ)) (-1) = lerp s.start s.finish (t - δ) := by
      rw [hpt]; exact lerp_back ..
    have := hc.pass_edge he hp.2 hend hne (k := -1) (by norm_num) s2 (by rw [hback]; exact s1)
    rwa [hback] at this
  · refine key v hv hn (fun f hf hvf => ?_) fun t δ d0 h0 h1 hpt s1 s2 => ?_
    · have hne : cross s.start s.finish a ≠ 0 ∧ cross s.start s.finish b ≠ 0 :=
        mul_ne_zero_iff.mp hneg.ne
      rcases hc.edges_at ha hb hf hvf with rfl | rfl
      · exact subsingleton_of_cross_ne (hc.nondegenerate ha) (.inl hne.1)
      · exact subsingleton_of_cross_ne (hc.nondegenerate hb) (.inr hne.2)
    have hne : v ≠ lerp s.start s.finish (t + δ) := fun he => by
      have := lerp_injective hs (hpt.symm.trans he); linarith
    have hback : lerp v (lerp s.start s.finish (t + δ)) (-1) = lerp s.start s.finish (t - δ) := by
      rw [hpt]; exact lerp_back ..
    have := hc.pass_vertex ha hb hne (k := -1) (by norm_num) s2 (by rw [hback]; exact s1)
    rw [hback] at this
    have hcr : ∀ a, cross v (lerp s.start s.finish (t + δ)) a = δ * cross s.start s.finish a := by
      intro a; rw [hpt]; exact cross_along ..
    rw [hcr, hcr, mul_neg_along d0] at this
    have := mt this.mp (not_not.mpr hneg)
    by_cases h1 : lerp s.start s.finish (t + δ) ∈ c.interior <;>
      by_cases h2 : lerp s.start s.finish (t - δ) ∈ c.interior <;> simp [h1, h2] at this ⊢

/-! ### the loop over the edges -/

section Loop

open Orient.contour (RelAt VertexAt)

variable (context : Context K) (s : Segment K) (es : List (Segment K))

/-- What the loop of `region.relateSegmentToContour` knows after the first `k` edges. -/
structure region.Inv (k : Nat) (st : region.LoopState K) : Prop where
  comp : ∀ i < k, ¬ RelAt context s es .component i ∧ ¬ RelAt context s es .equal i
  cross : ∀ i < k, ¬ RelAt context s es .cross i
  vertex : ∀ i, i + 1 < k → RelAt context s es .touch i → RelAt context s es .touch (i + 1) →
    ¬ VertexAt context s es i (i + 1)
  touch : st.hasNoTouch = true ↔ ∀ i < k, ¬ RelAt context s es .touch i
  overlap : st.hasNoOverlap = true ↔ ∀ i < k, ¬ RelAt context s es .overlap i ∧ ¬ RelAt context s es .composite i
  noLast : st.last = none → st.hasNoTouch = true
  last : ∀ j x, st.last = some (j, x) → st.hasNoTouch = false ∧ ∃ i : Nat, j = i ∧ i < k ∧
    (∃ e, es[i]? = some e ∧ e.start = x) ∧ RelAt context s es .touch i ∧
    ∀ i', i < i' → i' < k → ¬ RelAt context s es .touch i'

variable {context s es}

theorem region.Inv.init : region.Inv context s es 0 ⟨true, true, none⟩ where
  comp := by intro i hi; omega
  cross := by intro i hi; omega
  vertex := by intro i hi; omega
  touch := by simp
  overlap := by simp
  noLast := by simp
  last := by simp

theorem region.Inv.touched {k : Nat} {st : region.LoopState K} (h : region.Inv context s es k st) (hk : 0 < k) :
    (∃ x, st.last = some ((k : Int) - 1, x)) ↔ RelAt context s es .touch (k - 1) := by
  constructor
  · rintro ⟨x, hx⟩
    obtain ⟨-, i, h1, h2, -, h3, -⟩ := h.last _ _ hx
    have : i = k - 1 := by omega
    rw [← this]; exact h3
  · intro ht
    cases hl : st.last with
    | none =>
      exact absurd ht (h.touch.mp (h.noLast hl) _ (by omega))
    | some jx =>
      obtain ⟨j, x⟩ := jx
      obtain ⟨-, i, h1, h2, -, h3, h4⟩ := h.last _ _ hl
      have : i = k - 1 := by
        by_contra hne
        exact h4 (k - 1) (by omega) (by omega) ht
      refine ⟨x, ?_⟩
      rw [h1, this]
      congr 2
      omega

theorem region.Inv.step {k : Nat} {st : region.LoopState K} (h : region.Inv context s es k st) {e : Segment K}
    (he : es[k]? = some e) :
    (region.loopStep context s k e st = .inl .component ∧
      (RelAt context s es .component k ∨ RelAt context s es .equal k)) ∨
    (region.loopStep context s k e st = .inl .cross ∧
      (RelAt context s es .cross k ∨ ∃ i, i + 1 = k ∧ RelAt context s es .touch i ∧
        RelAt context s es .touch k ∧ VertexAt context s es i k)) ∨
    ∃ st', region.loopStep context s k e st = .inr st' ∧ region.Inv context s es (k + 1) st' := by
  have hrel : RelAt context s es (context.segmentsRelation s e) k := ⟨e, he, rfl⟩
  have upto : ∀ {P : Nat → Prop}, (∀ i < k, P i) → P k → ∀ i < k + 1, P i := by
    rintro P h1 h2 i hi
    rcases Nat.lt_succ_iff_lt_or_eq.mp hi with hi | rfl
    · exact h1 i hi
    · exact h2
  have upto' : ∀ {P : Nat → Prop}, P k → ((∀ i < k + 1, P i) ↔ ∀ i < k, P i) := by
    intro P h2
    exact ⟨fun h i hi => h i (by omega), fun h => upto h h2⟩
  have notr : ∀ {r}, r ≠ context.segmentsRelation s e → ¬ RelAt context s es r k :=
    fun hne h => hne (h.unique hrel)
  unfold region.loopStep
  simp only [show Orient.segment.relateSegment e s context = context.segmentsRelation s e from rfl]
  -- edges which are not touched
  have other : ∀ (b : Bool), context.segmentsRelation s e ≠ .touch → context.segmentsRelation s e ≠ .cross →
      context.segmentsRelation s e ≠ .component → context.segmentsRelation s e ≠ .equal →
      (b = true ↔ ∀ i < k + 1, ¬ RelAt context s es .overlap i ∧ ¬ RelAt context s es .composite i) →
      region.Inv context s es (k + 1) ⟨st.hasNoTouch, b, st.last⟩ := by
    intro b nt nx nc ne hb
    refine ⟨upto h.comp ⟨notr nc.symm, notr ne.symm⟩, upto h.cross (notr nx.symm), ?_, ?_, hb, h.noLast, ?_⟩
    · intro i hi h1 h2
      by_cases hik : i + 1 = k
      · rw [hik] at h2; exact absurd h2 (notr nt.symm)
      · exact h.vertex i (by omega) h1 h2
    · rw [upto' (notr nt.symm)]; exact h.touch
    · intro j x hl
      obtain ⟨h0, i, h1, h2, h3, h4, h5⟩ := h.last j x hl
      refine ⟨h0, i, h1, by omega, h3, h4, fun i' a b => ?_⟩
      rcases Nat.lt_succ_iff_lt_or_eq.mp b with b | rfl
      · exact h5 i' a b
      · exact notr nt.symm
  have plain : context.segmentsRelation s e ≠ .touch → context.segmentsRelation s e ≠ .cross →
      context.segmentsRelation s e ≠ .component → context.segmentsRelation s e ≠ .equal →
      context.segmentsRelation s e ≠ .overlap → context.segmentsRelation s e ≠ .composite →
      region.Inv context s es (k + 1) st := by
    intro h1 h2 h3 h4 h5 h6
    exact other st.hasNoOverlap h1 h2 h3 h4 (by rw [upto' ⟨notr h5.symm, notr h6.symm⟩]; exact h.overlap)
  have shared : (RelAt context s es .overlap k ∨ RelAt context s es .composite k) →
      (false = true ↔ ∀ i < k + 1, ¬ RelAt context s es .overlap i ∧ ¬ RelAt context s es .composite i) := by
    intro h'
    refine iff_of_false (by simp) fun hall => ?_
    rcases h' with h' | h'
    · exact (hall k (by omega)).1 h'
    · exact (hall k (by omega)).2 h'
  cases hr : context.segmentsRelation s e <;> rw [hr] at hrel notr other plain <;>
    simp only [reduceCtorEq, or_false, or_true, or_self, if_true, if_false]
  case component => exact .inl ⟨trivial, .inl hrel⟩
  case equal => exact .inl ⟨trivial, .inr hrel⟩
  case cross => exact .inr (.inl ⟨trivial, .inl hrel⟩)
  case overlap => exact .inr (.inr ⟨_, rfl, other false (by simp) (by simp) (by simp) (by simp) (shared (.inl hrel))⟩)
  case composite => exact .inr (.inr ⟨_, rfl, other false (by simp) (by simp) (by simp) (by simp) (shared (.inr hrel))⟩)
  case touch =>
    have fin : (∀ i, i + 1 = k → RelAt context s es .touch i → ¬ VertexAt context s es i k) →
        region.Inv context s es (k + 1) ⟨false, st.hasNoOverlap, some (k, e.start)⟩ := by
      intro hv
      refine ⟨upto h.comp ⟨notr (by simp), notr (by simp)⟩, upto h.cross (notr (by simp)), ?_, ?_, ?_, by simp, ?_⟩
      · intro i hi h1 h2
        by_cases hik : i + 1 = k
        · rw [hik]; exact hv i hik h1
        · exact h.vertex i (by omega) h1 h2
      · exact iff_of_false (by simp) fun hall => hall k (by omega) hrel
      · change st.hasNoOverlap = true ↔ _
        rw [upto' ⟨notr (by simp), notr (by simp)⟩]; exact h.overlap
      · intro j x hjx
        simp only [Option.some.injEq, Prod.mk.injEq] at hjx
        exact ⟨rfl, k, hjx.1.symm, by omega, ⟨e, he, hjx.2⟩, hrel, by omega⟩
    by_cases hT : st.hasNoTouch = true
    · simp only [hT, if_true]
      refine .inr (.inr ⟨_, rfl, fin fun i hi h1 => ?_⟩)
      exact absurd h1 (h.touch.mp hT i (by omega))
    · simp only [hT, Bool.false_eq_true, if_false]
      cases hl : st.last with
      | none => exact absurd (h.noLast hl) hT
      | some jx =>
        obtain ⟨j, x⟩ := jx
        obtain ⟨-, m, h1, h2, ⟨f, hf, hfx⟩, h4, h5⟩ := h.last j x hl
        have hT' : st.hasNoTouch = false := by simpa using hT
        simp only [Bool.and_eq_true, decide_eq_true_eq]
        by_cases hv : (k : Int) - j = 1 ∧ Orient.contour.crossesAtVertex context s x e.start e.finish = true
        · simp only [hv, and_self, if_true]
          refine .inr (.inl ⟨trivial, .inr ⟨m, by omega, h4, hrel, f, e, hf, he, ?_⟩⟩)
          rw [hfx]; exact hv.2
        · simp only [hv, if_false]
          refine .inr (.inr ⟨_, rfl, ?_⟩)
          refine fin fun i hi h1' hva => hv ?_
          have him : i = m := by
            by_contra hne
            exact h5 i (by omega) (by omega) h1'
          subst him
          refine ⟨by omega, ?_⟩
          obtain ⟨f', e', hf', he', hva⟩ := hva
          rw [hf] at hf'
          rw [he] at he'
          cases hf'
          cases he'
          rw [← hfx]
          exact hva
  all_goals exact .inr (.inr ⟨_, rfl, plain (by simp) (by simp) (by simp) (by simp) (by simp) (by simp)⟩)

theorem region.loop_spec : ∀ (l : List (Segment K)) (k : Nat) (st : region.LoopState K), es.drop k = l →
    region.Inv context s es k st →
    (region.loop context s k l st = .inl .component ∧
      ∃ i, RelAt context s es .component i ∨ RelAt context s es .equal i) ∨
    (region.loop context s k l st = .inl .cross ∧
      ((∃ i, RelAt context s es .cross i) ∨ ∃ i, RelAt context s es .touch i ∧
        RelAt context s es .touch (i + 1) ∧ VertexAt context s es i (i + 1))) ∨
    ∃ st', region.loop context s k l st = .inr st' ∧ region.Inv context s es (k + l.length) st'
  | [], k, st, _, h => .inr (.inr ⟨st, rfl, h⟩)
  | e :: l, k, st, hd, h => by
    have he : es[k]? = some e := by
      have := congrArg List.head? hd
      rwa [List.head?_drop] at this
    have hd' : es.drop (k + 1) = l := by
      have := congrArg List.tail hd
      rwa [List.tail_drop] at this
    unfold region.loop
    rcases h.step he with ⟨h1, h2⟩ | ⟨h1, h2⟩ | ⟨st', h1, h2⟩
    · rw [h1]; exact .inl ⟨rfl, k, h2⟩
    · rw [h1]
      refine .inr (.inl ⟨rfl, ?_⟩)
      rcases h2 with h2 | ⟨i, rfl, h2⟩
      · exact .inl ⟨k, h2⟩
      · exact .inr ⟨i, h2⟩
    · rw [h1]
      have := region.loop_spec l (k + 1) st' hd' h2
      rw [show ((k + 1 : Nat) : Int) = (k : Int) + 1 by omega, show k + 1 + l.length = k + (e :: l).length by
        simp only [List.length_cons]; omega] at this
      exact this

end Loop

/-- What `region.relateSegmentToContour` finds out. -/
def RegionContourRel (s : Segment K) (c : Contour K) : Relation → Prop
  | .disjoint => s.pts ∩ c.pts = ∅
  | .touch => ¬ SharesPiece s.pts c.pts ∧ ¬ CrossesEdges c s ∧ (s.pts ∩ c.pts).Nonempty
  | .overlap => SharesPiece s.pts c.pts ∧ ¬ CrossesEdges c s ∧ ¬ ∃ e ∈ c.edgeList, s.pts ⊆ e.pts
  | .cross => CrossesEdges c s
  | .component => ∃ e ∈ c.edgeList, s.pts ⊆ e.pts
  | _ => False

theorem Contour.Simple.not_crosses_of_subset {c : Contour K} (hc : c.Simple) {s : Segment K} (hs : s.Nondegenerate)
    (h : ∃ e ∈ c.edgeList, s.pts ⊆ e.pts) : ¬ CrossesEdges c s := by
  obtain ⟨e, he, hse⟩ := h
  rintro (⟨f, hf, p, hp, hn, hend⟩ | ⟨a, v, b, ha, hb, hv, hn, hneg⟩)
  · have hpf : p ∈ s.pts ∩ f.pts := by rw [hp]; rfl
    have := hc.edges_at_inner hf he hpf.2 hend (hse hpf.1)
    subst this
    rw [Set.inter_eq_left.mpr hse] at hp
    exact Set.not_nontrivial_iff.mpr (hp ▸ Set.subsingleton_singleton) (pts_nontrivial hs)
  · have hcol : s.Collinear e := collinear_of_nontrivial (hc.nondegenerate he)
      (by rw [Set.inter_eq_left.mpr hse]; exact pts_nontrivial hs)
    have hne := mul_ne_zero_iff.mp hneg.ne
    rcases hc.edges_at ha hb he (hse hv) with rfl | rfl
    · exact hne.1 hcol.1
    · exact hne.2 hcol.2

theorem RegionContourRel.unique {s : Segment K} (hs : s.Nondegenerate) {c : Contour K} (hc : c.Simple) {r r' : Relation}
    (h : RegionContourRel s c r) (h' : RegionContourRel s c r') : r = r' := by
  have p0 := hc.not_crosses_of_subset hs
  have p1 : (∃ e ∈ c.edgeList, s.pts ⊆ e.pts) → SharesPiece s.pts c.pts :=
    fun ⟨e, he, hse⟩ => ⟨s, hs, le_rfl, hse.trans (subset_segsPts he)⟩
  have p2 : SharesPiece s.pts c.pts → ¬ s.pts ∩ c.pts = ∅ := fun h => h.inter_nonempty.ne_empty
  have p3 : CrossesEdges c s → ¬ s.pts ∩ c.pts = ∅ := by
    rintro (⟨f, hf, p, hp, -⟩ | ⟨a, v, b, ha, hb, hv, -⟩)
    · have hpf : p ∈ s.pts ∩ f.pts := by rw [hp]; rfl
      exact Set.Nonempty.ne_empty ⟨p, hpf.1, f, hf, hpf.2⟩
    · exact Set.Nonempty.ne_empty ⟨v, hv, _, hb, start_mem _⟩
  have p4 : (s.pts ∩ c.pts).Nonempty → ¬ s.pts ∩ c.pts = ∅ := fun h => h.ne_empty
  cases r <;> cases r' <;> simp only [RegionContourRel] at h h' <;>
    generalize (∃ e ∈ c.edgeList, s.pts ⊆ e.pts) = A at * <;> first | rfl | (exfalso; tauto)

open Orient.contour (RelAt VertexAt crossesAtVertex_iff crossesAtVertex) in
open Orient.Props (relAt_iff segmentsRel_of_inner) in
theorem region.relateSegmentToContour_spec {context : Context K} (hc : context.Exact) {s : Segment K}
    (hs : s.Nondegenerate) {c : Contour K} (h : c.Simple) :
    ∃ r, region.relateSegmentToContour c s context = .ok r ∧ RegionContourRel s c r := by
  have h3 := h.three
  have h2 : 2 ≤ c.vertices.length := by omega
  have ofCross : ∀ {i}, RelAt context s c.edgeList .cross i → CrossesEdges c s := by
    intro i hi
    obtain ⟨e, he, p, hp, h1, h2⟩ := (relAt_iff hc hs h).mp hi
    exact .inl ⟨e, List.mem_of_getElem? he, p, hp, h1, h2⟩
  have ofVertex : ∀ {i j}, c.Next i j → RelAt context s c.edgeList .touch i →
      RelAt context s c.edgeList .touch j → VertexAt context s c.edgeList i j → CrossesEdges c s := by
    intro i j hn hi hj hv
    obtain ⟨e, he, hre⟩ := (relAt_iff hc hs h).mp hi
    obtain ⟨f, hf, hrf⟩ := (relAt_iff hc hs h).mp hj
    obtain ⟨e', f', he', hf', hv⟩ := hv
    obtain ⟨p, v, n, h3, h4⟩ := hn.edges h2
    rw [h3] at he he'
    rw [h4] at hf hf'
    cases he; cases he'; cases hf; cases hf'
    have hm := List.mem_of_getElem? h3
    have hm' := List.mem_of_getElem? h4
    rw [crossesAtVertex_iff hc hs (h.nondegenerate hm) (h.nondegenerate hm') hre hrf] at hv
    exact .inr ⟨p, v, n, hm, hm', hv.1.1, hv.1.2, hv.2⟩
  have toRel : CrossesEdges c s → (∃ i, RelAt context s c.edgeList .cross i) ∨ ∃ i j, c.Next i j ∧
      RelAt context s c.edgeList .touch i ∧ RelAt context s c.edgeList .touch j ∧
      VertexAt context s c.edgeList i j := by
    rintro (⟨e, he, p, hp, hn, hend⟩ | ⟨a, v, b, ha, hb, hv, hn, hneg⟩)
    · obtain ⟨i, hi⟩ := List.mem_iff_getElem?.mp he
      exact .inl ⟨i, (relAt_iff hc hs h).mpr ⟨e, hi, p, hp, hn, hend⟩⟩
    · have hne := mul_ne_zero_iff.mp hneg.ne
      have na : a ≠ v := h.nondegenerate ha
      have nb : v ≠ b := h.nondegenerate hb
      have t1 := (segmentsRel_of_inner (subsingleton_of_cross_ne (e := ⟨a, v⟩) (h.nondegenerate ha) (.inl hne.1))
        ⟨hv, hn⟩ (finish_mem _)).2 (.inr rfl)
      have t2 := (segmentsRel_of_inner (subsingleton_of_cross_ne (e := ⟨v, b⟩) (h.nondegenerate hb) (.inr hne.2))
        ⟨hv, hn⟩ (start_mem _)).2 (.inl rfl)
      obtain ⟨i, hi⟩ := List.mem_iff_getElem?.mp ha
      obtain ⟨j, hj⟩ := List.mem_iff_getElem?.mp hb
      have hij : i ≠ j := by
        rintro rfl
        rw [hi] at hj
        cases hj
        exact na rfl
      have hnext : c.Next i j := by
        rcases h.next_of_common hi hj hij (p := v) (.inr rfl) (.inl rfl) with ⟨hn, -⟩ | ⟨-, hn, -⟩
        · exact hn
        · exact absurd hn nb
      refine .inr ⟨i, j, hnext, (relAt_iff hc hs h).mpr ⟨_, hi, t1⟩, (relAt_iff hc hs h).mpr ⟨_, hj, t2⟩,
        _, _, hi, hj, ?_⟩
      rw [crossesAtVertex_iff hc hs na nb t1 t2]
      exact ⟨⟨hv, hn⟩, hneg⟩
  unfold region.relateSegmentToContour
  rw [hc.contourSegments]
  rcases region.loop_spec (es := c.edgeList) c.edgeList 0 _ rfl region.Inv.init with
    ⟨e1, i, hi⟩ | ⟨e1, hi⟩ | ⟨st, e1, hinv⟩
  · simp only [Nat.cast_zero] at e1
    rw [e1]
    refine ⟨_, rfl, ?_⟩
    rw [relAt_iff hc hs h, relAt_iff hc hs h] at hi
    rcases hi with ⟨e, he, hr⟩ | ⟨e, he, hr⟩
    · exact ⟨e, List.mem_of_getElem? he, hr.1⟩
    · exact ⟨e, List.mem_of_getElem? he, (show s.pts = e.pts from hr).le⟩
  · simp only [Nat.cast_zero] at e1
    rw [e1]
    refine ⟨_, rfl, ?_⟩
    rcases hi with ⟨i, hi⟩ | ⟨i, h1, h2', hv⟩
    · exact ofCross hi
    · refine ofVertex (.inl ⟨rfl, ?_⟩) h1 h2' hv
      obtain ⟨e, he, -⟩ := h2'
      rw [← Contour.length_edgeList]; exact (List.getElem?_eq_some_iff.mp he).1
  · simp only [Nat.cast_zero] at e1
    simp only [Nat.zero_add, Contour.length_edgeList] at hinv
    rw [e1]
    have hlt : ∀ {i r}, RelAt context s c.edgeList r i → i < c.vertices.length := by
      rintro i r ⟨e, he, -⟩
      rw [← Contour.length_edgeList]; exact (List.getElem?_eq_some_iff.mp he).1
    have relOf : ∀ {e}, e ∈ c.edgeList → ∃ i r, RelAt context s c.edgeList r i ∧ SegmentsRel s e r := by
      intro e he
      obtain ⟨i, hi⟩ := List.mem_iff_getElem?.mp he
      exact ⟨i, _, ⟨e, hi, rfl⟩, hc.relation s e hs (h.nondegenerate he)⟩
    have noSub : ¬ ∃ e ∈ c.edgeList, s.pts ⊆ e.pts := by
      rintro ⟨e, he, hse⟩
      obtain ⟨i, r, hi, hr⟩ := relOf he
      have hnt := pts_nontrivial hs
      have hlt := hlt hi
      cases r <;> simp only [SegmentsRel] at hr
      case disjoint => rw [Set.inter_eq_left.mpr hse] at hr; exact hnt.nonempty.ne_empty hr
      case touch =>
        obtain ⟨p, hp, -⟩ := hr
        rw [Set.inter_eq_left.mpr hse] at hp
        exact Set.not_nontrivial_iff.mpr (hp ▸ Set.subsingleton_singleton) hnt
      case cross =>
        obtain ⟨p, hp, -⟩ := hr
        rw [Set.inter_eq_left.mpr hse] at hp
        exact Set.not_nontrivial_iff.mpr (hp ▸ Set.subsingleton_singleton) hnt
      case overlap => exact hr.1 hse
      case composite => exact hr.2 hse
      case equal => exact (hinv.comp i hlt).2 hi
      case component => exact (hinv.comp i hlt).1 hi
    have hov : st.hasNoOverlap = true ↔ ¬ SharesPiece s.pts c.pts := by
      rw [hinv.overlap]
      unfold Contour.pts
      rw [sharesPiece_iff]
      constructor
      · rintro hall ⟨e, he, hn⟩
        obtain ⟨i, r, hi, hr⟩ := relOf he
        have hlt := hlt hi
        cases r <;> simp only [SegmentsRel] at hr
        case disjoint => rw [hr] at hn; exact Set.not_nontrivial_empty hn
        case touch =>
          obtain ⟨p, hp, -⟩ := hr
          rw [hp] at hn
          exact Set.not_nontrivial_singleton hn
        case cross =>
          obtain ⟨p, hp, -⟩ := hr
          rw [hp] at hn
          exact Set.not_nontrivial_singleton hn
        case overlap => exact (hall i hlt).1 hi
        case composite => exact (hall i hlt).2 hi
        case equal => exact (hinv.comp i hlt).2 hi
        case component => exact (hinv.comp i hlt).1 hi
      · intro hno i hlt
        constructor
        · intro hi
          obtain ⟨e, he, hr⟩ := (relAt_iff hc hs h).mp hi
          exact hno ⟨e, List.mem_of_getElem? he, hr.2.2⟩
        · intro hi
          obtain ⟨e, he, hr⟩ := (relAt_iff hc hs h).mp hi
          refine hno ⟨e, List.mem_of_getElem? he, ?_⟩
          rw [Set.inter_eq_right.mpr hr.1]
          exact pts_nontrivial (h.nondegenerate (List.mem_of_getElem? he))
    -- the answer, given that nothing is crossed
    have fin : ¬ CrossesEdges c s → RegionContourRel s c
        (if st.hasNoOverlap = true then (if st.hasNoTouch = true then .disjoint else .touch) else .overlap) := by
      intro hnX
      by_cases hO : st.hasNoOverlap = true
      · rw [if_pos hO]
        by_cases hT : st.hasNoTouch = true
        · rw [if_pos hT]
          change _ = ∅
          by_contra hne
          obtain ⟨p, hp, e, he, hpe⟩ := Set.nonempty_iff_ne_empty.mpr hne
          obtain ⟨i, r, hi, hr⟩ := relOf he
          have hlt := hlt hi
          cases r <;> simp only [SegmentsRel] at hr
          case disjoint => exact Set.eq_empty_iff_forall_notMem.mp hr p ⟨hp, hpe⟩
          case touch => exact hinv.touch.mp hT i hlt hi
          case cross => exact hinv.cross i hlt hi
          case overlap => exact (hinv.overlap.mp hO i hlt).1 hi
          case composite => exact (hinv.overlap.mp hO i hlt).2 hi
          case equal => exact (hinv.comp i hlt).2 hi
          case component => exact (hinv.comp i hlt).1 hi
        · rw [if_neg hT]
          refine ⟨hov.mp hO, hnX, ?_⟩
          by_contra hne
          apply hT
          rw [hinv.touch]
          rintro i - hi
          obtain ⟨e, he, q, hq, -⟩ := (relAt_iff hc hs h).mp hi
          have hqm : q ∈ s.pts ∩ e.pts := by rw [hq]; rfl
          exact hne ⟨q, hqm.1, e, List.mem_of_getElem? he, hqm.2⟩
      · rw [if_neg hO]
        exact ⟨not_not.mp (mt hov.mpr hO), hnX, noSub⟩
    have hwrap : CrossesEdges c s ↔ RelAt context s c.edgeList .touch (c.vertices.length - 1) ∧
          RelAt context s c.edgeList .touch 0 ∧
          VertexAt context s c.edgeList (c.vertices.length - 1) 0 := by
      constructor
      · intro hX
        rcases toRel hX with ⟨i, hi⟩ | ⟨i, j, hn, h1, h2, h4⟩
        · exact absurd hi (hinv.cross i (hlt hi))
        · rcases hn with ⟨rfl, hl⟩ | ⟨e, rfl⟩
          · exact absurd h4 (hinv.vertex i hl h1 h2)
          · have : i = c.vertices.length - 1 := by omega
            subst this
            exact ⟨h1, h2, h4⟩
      · rintro ⟨h1, h2, h4⟩
        exact ofVertex (.inr ⟨by omega, rfl⟩) h1 h2 h4
    have g1 : pyGet c.vertices (-1) = .ok (c.vertices[c.vertices.length - 1]'(by omega)) := by
      have := pyGet_neg c.vertices 0 (by omega)
      simpa using this
    have g2 : pyGet c.vertices (-2) = .ok (c.vertices[c.vertices.length - 2]'(by omega)) := by
      have := pyGet_neg c.vertices 1 (by omega)
      simpa [Nat.sub_sub] using this
    have g0 : pyGet c.vertices 0 = .ok (c.vertices[0]'(by omega)) := by
      have := pyGet_of_lt c.vertices 0 (by omega)
      simpa using this
    have e0 := Contour.edge_zero c (by omega)
    have el : c.edgeList[c.vertices.length - 1]? = some ⟨c.vertices[c.vertices.length - 2]'(by omega),
        c.vertices[c.vertices.length - 1]'(by omega)⟩ := by
      have := Contour.edge_succ c (c.vertices.length - 2) (by omega)
      have ee : c.vertices.length - 2 + 1 = c.vertices.length - 1 := by omega
      simp only [ee] at this
      exact this
    have t0 : RelAt context s c.edgeList .touch 0 ↔ Orient.segment.relateSegment
        ⟨c.vertices[c.vertices.length - 1]'(by omega), c.vertices[0]'(by omega)⟩ s context
          = .touch := by
      constructor
      · rintro ⟨e, he, hr⟩
        rw [e0] at he
        cases he
        exact hr
      · intro hr
        exact ⟨_, e0, hr⟩
    have tv : VertexAt context s c.edgeList (c.vertices.length - 1) 0 ↔
        crossesAtVertex context s (c.vertices[c.vertices.length - 2]'(by omega))
          (c.vertices[c.vertices.length - 1]'(by omega)) (c.vertices[0]'(by omega)) = true := by
      constructor
      · rintro ⟨e, f, he, hf, hv⟩
        rw [e0] at hf
        rw [el] at he
        cases he; cases hf
        exact hv
      · intro hv
        exact ⟨_, _, el, e0, hv⟩
    have tl : (st.last.map Prod.fst = some ((c.vertices.length : Int) - 1)) ↔
        RelAt context s c.edgeList .touch (c.vertices.length - 1) := by
      rw [← hinv.touched (by omega)]
      cases st.last with
      | none => simp
      | some jx => obtain ⟨j, x⟩ := jx; simp
    rw [t0, tv] at hwrap
    by_cases hcond : (!st.hasNoTouch &&
        decide (st.last.map Prod.fst = some ((c.vertices.length : Int) - 1))) = true
    · simp only [hcond, if_true, g1, g2, g0, bind, Except.bind]
      simp only [Bool.and_eq_true, decide_eq_true_eq] at hcond
      have htl := tl.mp hcond.2
      by_cases hre : Orient.segment.relateSegment
          ⟨c.vertices[c.vertices.length - 1]'(by omega), c.vertices[0]'(by omega)⟩ s context = .touch
      · simp only [hre, if_true]
        by_cases hv : crossesAtVertex context s (c.vertices[c.vertices.length - 2]'(by omega))
          (c.vertices[c.vertices.length - 1]'(by omega)) (c.vertices[0]'(by omega)) = true
        · simp only [hv, if_true]
          exact ⟨_, rfl, hwrap.mpr ⟨htl, hre, hv⟩⟩
        · simp only [hv, Bool.false_eq_true, if_false]
          exact ⟨_, rfl, fin (by rw [hwrap]; simp [hv])⟩
      · simp only [hre, if_false]
        exact ⟨_, rfl, fin (by rw [hwrap]; simp [hre])⟩
    · simp only [hcond, Bool.false_eq_true, if_false]
      refine ⟨_, rfl, fin ?_⟩
      rw [hwrap]
      rintro ⟨h1, -⟩
      apply hcond
      have hT : st.hasNoTouch = false := by
        rw [Bool.eq_false_iff]
        intro ht
        exact hinv.touch.mp ht _ (hlt h1) h1
      simp only [hT, tl.mpr h1, Bool.not_false, Bool.and_self, decide_true]

end Orient
