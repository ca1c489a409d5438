import Verif.Lemmas.Along

/-! The tests of `region.relateSegment` at endpoints of segments which may run along edges. -/

set_option linter.unusedSectionVars false

namespace Orient

open Segment

variable {K : Type} [Field K] [LinearOrder K] [IsStrictOrderedRing K]

theorem pyGet_total {α : Type} (l : List α) (k : Int) (h1 : -l.length ≤ k) (h2 : k < l.length) :
    ∃ a, pyGet l k = .ok a := by
  by_cases h : 0 ≤ k
  · have hk : k.toNat < l.length := by omega
    exact ⟨_, pyGet_eq (List.getElem?_eq_getElem hk) (.inl (by omega))⟩
  · have hk : (k + l.length).toNat < l.length := by omega
    exact ⟨_, pyGet_eq (List.getElem?_eq_getElem hk) (.inr (by omega))⟩

/-- The test at the start always gives an answer. -/
theorem touchesAtStart_total (context : Context K) (o : Orientation) {c : Contour K} (h3 : 3 ≤ c.vertices.length)
    {i : Nat} {e : Segment K} (he : c.edgeList[i]? = some e) (start finish : Point K) :
    ∃ b, region.touchesAtStart context c.vertices o i start finish = .ok b := by
  obtain ⟨g1, g2, ⟨a, -, g3⟩, b, -, g4⟩ := c.vertices_at (by omega) he
  have hi : i < c.vertices.length := by
    rw [← Contour.length_edgeList]; exact (List.getElem?_eq_some_iff.mp he).1
  obtain ⟨d, g5⟩ := pyGet_total c.vertices ((c.vertices.length : Int) - i - 3) (by omega) (by omega)
  unfold region.touchesAtStart
  simp only [g1, g2, g3, g4, g5, bind, Except.bind, pure, Except.pure]
  split_ifs <;> exact ⟨_, rfl⟩

/-- The test at the end always gives an answer. -/
theorem touchesAtEnd_total (context : Context K) (o : Orientation) {c : Contour K} (h3 : 3 ≤ c.vertices.length)
    {i : Nat} {e : Segment K} (he : c.edgeList[i]? = some e) (start finish : Point K) :
    ∃ b, region.touchesAtEnd context c.vertices o i start finish = .ok b := by
  obtain ⟨g1, g2, ⟨a, -, g3⟩, b, -, g4⟩ := c.vertices_at (by omega) he
  have hi : i < c.vertices.length := by
    rw [← Contour.length_edgeList]; exact (List.getElem?_eq_some_iff.mp he).1
  obtain ⟨d, g5⟩ := pyGet_total c.vertices ((c.vertices.length : Int) - i - 3) (by omega) (by omega)
  unfold region.touchesAtEnd
  simp only [g1, g2, g3, g4, g5, bind, Except.bind, pure, Except.pure]
  split_ifs <;> exact ⟨_, rfl⟩

/-- A segment with a common piece with another one with the same beginning goes in its direction. -/
theorem exists_ray {w far b : Point K} (hfar : w ≠ far)
    (h : ((⟨w, far⟩ : Segment K).pts ∩ (⟨w, b⟩ : Segment K).pts).Nontrivial) :
    ∃ k : K, 0 < k ∧ far = lerp w b k := by
  obtain ⟨z, ⟨⟨r, r0, -, hr⟩, ⟨u, u0, -, hu⟩⟩, hzw⟩ := h.exists_ne w
  simp only at hr hu
  have hr' : 0 < r := lt_of_le_of_ne r0 fun h => hzw (by rw [hr, ← h, lerp_zero])
  have hu' : 0 < u := lt_of_le_of_ne u0 fun h => hzw (by rw [hu, ← h, lerp_zero])
  refine ⟨u / r, by positivity, ?_⟩
  have hxy := hr.symm.trans hu
  simp only [lerp, Point.mk.injEq] at hxy
  refine Point.ext ?_ ?_ <;> simp only [lerp] <;> field_simp <;> linarith [hxy.1, hxy.2]

theorem corner_along {context : Context K} (hc : context.Exact) {a w b far : Point K}
    (h : (∃ k : K, 0 < k ∧ far = lerp w b k) ∨ ∃ k : K, 0 < k ∧ far = lerp w a k) :
    ¬ (if context.angleOrientation a w b = .counterclockwise then
      context.angleOrientation w a far = .counterclockwise ∨
        context.angleOrientation b w far = .counterclockwise
    else context.angleOrientation w a far = context.angleOrientation b w far ∧
        context.angleOrientation b w far = .counterclockwise) := by
  have k1 := hc.counterclockwise w a far
  have k2 := hc.counterclockwise b w far
  have k3 := hc.counterclockwise a w b
  have z : cross w a far = 0 ∨ cross b w far = 0 := by
    rcases h with ⟨k, k0, rfl⟩ | ⟨k, k0, rfl⟩
    · right; simp only [cross, lerp]; ring
    · left; simp only [cross, lerp]; ring
  have z' : 0 < cross a w b → ¬ 0 < cross w a far ∧ ¬ 0 < cross b w far := by
    intro h0
    rcases h with ⟨k, k0, rfl⟩ | ⟨k, k0, rfl⟩
    · have e1 : cross w a (lerp w b k) = - (k * cross a w b) := by simp only [cross, lerp]; ring
      have e2 : cross b w (lerp w b k) = 0 := by simp only [cross, lerp]; ring
      rw [e1, e2]
      have := mul_pos k0 h0
      exact ⟨by linarith, lt_irrefl _⟩
    · have e1 : cross w a (lerp w a k) = 0 := by simp only [cross, lerp]; ring
      have e2 : cross b w (lerp w a k) = - (k * cross a w b) := by simp only [cross, lerp]; ring
      rw [e1, e2]
      have := mul_pos k0 h0
      exact ⟨lt_irrefl _, by linarith⟩
  split_ifs with h0
  · obtain ⟨z1, z2⟩ := z' (k3.mp h0)
    rintro (h | h)
    · exact z1 (k1.mp h)
    · exact z2 (k2.mp h)
  · rintro ⟨h1, h2⟩
    have h1 := k1.mp (h1.trans h2)
    have h2 := k2.mp h2
    rcases z with z | z <;> linarith

/-- The test at the start does not say anything about segments which begin along an edge. -/
theorem touchesAtStart_along {context : Context K} (hc : context.Exact) {c : Contour K} (h : c.Simple)
    {p v q : Point K} (hn : cross p v q ≠ 0) {i : Nat} {e : Segment K}
    (he : c.edgeList[i]? = some e) {start finish : Point K} (hw : start ∈ e.pts) (hne : start ≠ finish)
    {g : Segment K} (hg : g ∈ c.edgeList) (hwg : start ∈ g.pts)
    (halong : ((⟨start, finish⟩ : Segment K).pts ∩ g.pts).Nontrivial)
    (hside : 0 < cross p v q ∨ ¬ e.IsEndpoint start) :
    region.touchesAtStart context c.vertices (context.angleOrientation p v q) i start finish = .ok false := by
  have h2 : 2 ≤ c.vertices.length := by have := h.three; omega
  obtain ⟨g1, g2, ⟨a, ha, g3⟩, b, hb, g4⟩ := c.vertices_at h2 he
  have hm := List.mem_of_getElem? he
  have ray : ∀ {a w b : Point K}, ⟨a, w⟩ ∈ c.edgeList → ⟨w, b⟩ ∈ c.edgeList → start = w →
      (∃ k : K, 0 < k ∧ finish = lerp w b k) ∨ ∃ k : K, 0 < k ∧ finish = lerp w a k := by
    rintro a w b h1 h2 rfl
    rcases h.edges_at h1 h2 hg hwg with rfl | rfl
    · right
      rw [← pts_reverse ⟨a, start⟩] at halong
      exact exists_ray hne halong
    · exact .inl (exists_ray hne halong)
  unfold region.touchesAtStart
  simp only [g1, g2, g3, g4, bind, Except.bind, pure, Except.pure]
  by_cases e1 : start = e.start
  · have hccw : 0 < cross p v q := hside.resolve_right (not_not.mpr (.inl e1))
    have ho := (hc.counterclockwise p v q).mpr hccw
    have := corner_along hc (ray ha hm e1)
    simp only [ho, decide_true, if_true, e1]
    split_ifs at this ⊢ with h3
    · simpa using this
    · simpa using this
  · by_cases e2 : start = e.finish
    · have hccw : 0 < cross p v q := hside.resolve_right (not_not.mpr (.inr e2))
      have ho := (hc.counterclockwise p v q).mpr hccw
      have := corner_along hc (ray hm hb e2)
      simp only [ho, decide_true, if_true, e1, if_false]
      rw [if_pos e2]
      split_ifs at this ⊢ with h3
      · push Not at this
        simp [this]
      · rfl
    · have hend : ¬ e.IsEndpoint start := by rintro (h | h) <;> [exact e1 h; exact e2 h]
      have := h.edges_at_inner hm hg hw hend hwg
      subst this
      have hcol := collinear_of_nontrivial (t := g) (g := ⟨start, finish⟩) hne (by rw [Set.inter_comm]; exact halong)
      have h0 : cross g.finish g.start finish = 0 := by
        rw [cross_flip, hcol.2, neg_zero]
      have : context.angleOrientation g.finish g.start finish ≠ context.angleOrientation p v q := by
        intro h'
        rcases lt_or_gt_of_ne hn with h1 | h1
        · rw [(hc.clockwise p v q).mpr h1, hc.clockwise, h0] at h'
          exact lt_irrefl _ h'
        · rw [(hc.counterclockwise p v q).mpr h1, hc.counterclockwise, h0] at h'
          exact lt_irrefl _ h'
      simp [e1, e2, this]

/-- A segment of points of a contour without superfluous vertices is a part of an edge. -/
theorem Contour.Simple.subset_edge {c : Contour K} (hc : c.Simple)
    (hflat : ∀ a w b, ⟨a, w⟩ ∈ c.edgeList → ⟨w, b⟩ ∈ c.edgeList → cross a w b ≠ 0) {s : Segment K}
    (hs : s.Nondegenerate) (h : s.pts ⊆ c.pts) : ∃ e ∈ c.edgeList, s.pts ⊆ e.pts := by
  -- a piece of the segment near to a point of it is on an edge through that point
  have near : ∀ t η : K, 0 ≤ t → t ≤ 1 → 0 ≤ t + η → t + η ≤ 1 → η ≠ 0 → ∃ e ∈ c.edgeList, ∃ r, 0 < r ∧ r ≤ 1 ∧
      lerp s.start s.finish t ∈ e.pts ∧ lerp s.start s.finish (t + r * η) ∈ e.pts := by
    intro t η t0 t1 u0 u1 hη
    obtain ⟨δ, d0, hδ⟩ := exists_near_edges hs c.edgeList t0 t1
    have ha : 0 < |η| := abs_pos.mpr hη
    set r := min 1 (δ / |η|) with hr
    have r0 : 0 < r := lt_min one_pos (by positivity)
    have r1 : r ≤ 1 := min_le_left _ _
    have r2 : r * |η| ≤ δ := by
      have := min_le_right 1 (δ / |η|)
      rw [← hr, le_div_iff₀ ha] at this
      exact this
    have k0 : 0 ≤ t + r * η := by nlinarith
    have k1 : t + r * η ≤ 1 := by nlinarith
    obtain ⟨e, he, hue⟩ := h (⟨_, k0, k1, rfl⟩ : lerp s.start s.finish (t + r * η) ∈ s.pts)
    refine ⟨e, he, r, r0, r1, hδ e he _ k0 k1 ?_ hue, hue⟩
    rw [add_sub_cancel_left, abs_mul, abs_of_pos r0]
    exact r2
  obtain ⟨e, he, r, r0, r1, m0, m1⟩ := near 0 1 le_rfl zero_le_one (by norm_num) (by norm_num) one_ne_zero
  rw [zero_add, mul_one] at m1
  rw [lerp_zero] at m0
  have hne : s.start ≠ lerp s.start s.finish r := fun h' =>
    r0.ne (lerp_injective hs ((lerp_zero _ _).trans h'))
  have hcol : s.Collinear e := collinear_of_nontrivial (hc.nondegenerate he)
    ⟨s.start, ⟨start_mem _, m0⟩, _, ⟨⟨r, r0.le, r1, rfl⟩, m1⟩, hne⟩
  refine ⟨e, he, ?_⟩
  by_contra hns
  -- the end of the edge is an inner point of the segment
  obtain ⟨α, hα⟩ := exists_lerp_of_cross_eq_zero hs hcol.1
  obtain ⟨β, hβ⟩ := exists_lerp_of_cross_eq_zero hs hcol.2
  have key : ∀ u, lerp s.start s.finish u ∈ e.pts → u ≤ max α β := by
    rintro u ⟨k, k0, k1, hk⟩
    rw [hα, hβ, lerp_lerp] at hk
    rw [lerp_injective hs hk]
    rcases le_total α β with h | h
    · rw [max_eq_right h]; nlinarith
    · rw [max_eq_left h]; nlinarith
  have conv : ∀ {x y : Point K}, x ∈ e.pts → y ∈ e.pts → ∀ k, 0 ≤ k → k ≤ 1 → lerp x y k ∈ e.pts := by
    rintro x y ⟨i, i0, i1, rfl⟩ ⟨j, j0, j1, rfl⟩ k k0 k1
    rw [lerp_lerp]
    exact ⟨_, by nlinarith, by nlinarith, rfl⟩
  set γ := max α β with hγ
  have hγe : e.IsEndpoint (lerp s.start s.finish γ) := by
    rcases max_choice α β with h | h
    · rw [hγ, h, ← hα]; exact .inl rfl
    · rw [hγ, h, ← hβ]; exact .inr rfl
  have g0 : 0 < γ := lt_of_lt_of_le r0 (key _ m1)
  have g1 : γ < 1 := by
    by_contra hg
    push Not at hg
    apply hns
    rintro x ⟨t, t0, t1, rfl⟩
    have := conv m0 hγe.mem (t / γ) (by positivity) (by rw [div_le_one g0]; linarith)
    have e1 : lerp s.start (lerp s.start s.finish γ) (t / γ) = lerp s.start s.finish t := by
      have := lerp_lerp s.start s.finish 0 γ (t / γ)
      rw [lerp_zero] at this
      rw [this]
      congr 1
      field_simp
      ring
    rwa [e1] at this
  obtain ⟨f, hf, k, k0, k1, m2, m3⟩ := near γ (1 - γ) g0.le g1.le (by linarith) (by linarith) (by linarith)
  have hcolf : s.Collinear f := by
    refine collinear_of_nontrivial (hc.nondegenerate hf)
      ⟨_, ⟨⟨γ, g0.le, g1.le, rfl⟩, m2⟩, _, ⟨⟨_, by nlinarith, by nlinarith, rfl⟩, m3⟩, fun h' => ?_⟩
    have := lerp_injective hs h'
    nlinarith
  have hfe : f ≠ e := by
    rintro rfl
    have := key _ m3
    nlinarith
  obtain ⟨a, b, ha, hb⟩ := hc.edges_of_endpoint he hγe
  have flat : ∀ {x y z : Point K}, cross s.start s.finish x = 0 → cross s.start s.finish y = 0 →
      cross s.start s.finish z = 0 → cross x y z = 0 := fun h1 h2 h3 => collinear_trans hs h1 h2 h3
  rcases hc.edges_at ha hb he hγe.mem with rfl | rfl
  · rcases hc.edges_at ha hb hf m2 with rfl | rfl
    · exact hfe rfl
    · exact hflat _ _ _ ha hb (flat hcol.1 hcol.2 hcolf.2)
  · rcases hc.edges_at ha hb hf m2 with rfl | rfl
    · exact hflat _ _ _ ha hb (flat hcolf.1 hcolf.2 hcol.2)
    · exact hfe rfl

end Orient
