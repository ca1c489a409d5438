import Verif.Props.ExactSegmentsAll
import Verif.Props.MovedAll
import Verif.Props.Rewritten

/-! C84: moving a segment together with a region.

C78 leaves out `segment_in_region` and `segment_in_polygon`, because reflections may change their answers.  Affine maps
which keep the orientation do not; others do not if the contour is listed counterclockwise before and after, unless the
segment starts at a vertex at which the contour does not turn left and which is the last one of only one of the lists. -/

set_option linter.unusedSectionVars false

namespace Orient.Props

variable {K : Type} [Field K] [LinearOrder K] [IsStrictOrderedRing K]

open Segment

theorem sign_table {I A B D : Prop} (h1 : I ↔ A) (h2 : I ↔ (D ↔ B)) : ¬ B ↔ (D ↔ ¬ A) := by
  by_cases hA : A <;> by_cases hB : B <;> by_cases hD : D <;> simp_all

/-- The direction in which the image of a contour is listed. -/
theorem affine_clockwise {f : Affine K} (hf : f.det ≠ 0) {c : Contour K} (h : c.Simple) :
    (f.contour c).Clockwise ↔ (0 < f.det ↔ c.Clockwise) := by
  have h' := affine_simple hf h
  obtain ⟨p, v, q, hl, hn⟩ := h.leastCorner
  obtain ⟨p', v', q', hl', hn'⟩ := h'.leastCorner
  have hlen : 0 < c.edgeList.length := by rw [Contour.length_edgeList]; have := h.three; omega
  obtain ⟨e, he⟩ : ∃ e, e ∈ c.edgeList := ⟨_, List.getElem_mem hlen⟩
  have hne := h.nondegenerate he
  have hm0 : lerp e.start e.finish (1 / 2) ∈ e.pts := ⟨1 / 2, by norm_num, by norm_num, rfl⟩
  have hmend : ¬ e.IsEndpoint (lerp e.start e.finish (1 / 2)) := by
    rintro (h0 | h0)
    · have := lerp_injective hne (h0.trans (lerp_zero _ _).symm)
      norm_num at this
    · have := lerp_injective hne (h0.trans (lerp_one _ _).symm)
      norm_num at this
  generalize lerp e.start e.finish (1 / 2) = m at hm0 hmend
  have hpos : 0 < (e.finish.x - e.start.x) ^ 2 + (e.finish.y - e.start.y) ^ 2 := by
    by_contra hcon
    have a1 := sq_nonneg (e.finish.x - e.start.x)
    have a2 := sq_nonneg (e.finish.y - e.start.y)
    refine hne (Point.ext ?_ ?_)
    · have : (e.finish.x - e.start.x) ^ 2 = 0 := by linarith
      have := pow_eq_zero_iff (two_ne_zero) |>.mp this
      linarith
    · have : (e.finish.y - e.start.y) ^ 2 = 0 := by linarith
      have := pow_eq_zero_iff (two_ne_zero) |>.mp this
      linarith
  obtain ⟨z, hz⟩ : ∃ z : Point K, ∀ u, cross e.start e.finish (lerp m z u) =
      u * ((e.finish.x - e.start.x) ^ 2 + (e.finish.y - e.start.y) ^ 2) := by
    refine ⟨⟨m.x - (e.finish.y - e.start.y), m.y + (e.finish.x - e.start.x)⟩, fun u => ?_⟩
    obtain ⟨t, -, -, rfl⟩ := hm0
    simp only [cross, lerp]; ring
  have hmz : m ≠ z := by
    rintro rfl
    have h1 := hz 1
    have h2 := hz 0
    rw [lerp_one] at h1
    rw [lerp_zero] at h2
    linarith
  obtain ⟨δ, d0, hδ⟩ := exists_seen_near (s := ⟨m, z⟩) (c := c) hmz (le_refl (0 : K)) zero_le_one (by
    intro g hg hmg
    simp only [lerp_zero] at hmg
    have := h.edges_at_inner he hg hm0 hmend hmg
    subst this
    rintro a ⟨⟨t, t0, t1, rfl⟩, ha⟩ b ⟨⟨u, u0, u1, rfl⟩, hb⟩
    have k1 := hz t
    have k2 := hz u
    simp only at ha hb
    have on : ∀ x ∈ g.pts, cross g.start g.finish x = 0 := by
      rintro _ ⟨r, -, -, rfl⟩
      exact cross_lerp_self _ _ r
    rw [on _ ha, eq_comm, mul_eq_zero] at k1
    rw [on _ hb, eq_comm, mul_eq_zero] at k2
    rw [k1.resolve_right hpos.ne', k2.resolve_right hpos.ne'])
  have hseen := hδ (min δ 1) (lt_min d0 one_pos).le (min_le_right _ _) (by
    rw [sub_zero, abs_of_pos (lt_min d0 one_pos)]; exact min_le_left _ _)
  simp only [lerp_zero] at hseen
  have hx : 0 < cross e.start e.finish (lerp m z (min δ 1)) := by
    rw [hz]; exact mul_pos (lt_min d0 one_pos) hpos
  generalize lerp m z (min δ 1) = x at hseen hx
  have hseen' : Seen (f.contour c) (f.apply m) (f.apply x) := by
    have e1 : (⟨f.apply m, f.apply x⟩ : Segment K) = f.segment ⟨m, x⟩ := rfl
    unfold Seen
    rw [e1, affine_segment_pts, affine_contour_pts]
    simp only [Set.forall_mem_image, (affine_inj hf).mem_set_image, (affine_inj hf).eq_iff, ne_eq]
    exact fun z hz => hseen z hz
  have i1 := h.seen_edge hl he hm0 hmend hseen hx.ne'
  have i2 := h'.seen_edge hl' (e := f.segment e) (by rw [affine_edges]; exact List.mem_map_of_mem he)
    (m := f.apply m) (x := f.apply x) (by rw [affine_segment_pts]; exact ⟨_, hm0, rfl⟩)
    (by rwa [affine_isEndpoint hf]) hseen' (by
      simp only [Affine.segment, affine_cross]; exact mul_ne_zero hf hx.ne')
  rw [affine_interior hf, (affine_inj hf).mem_set_image] at i2
  simp only [Affine.segment, affine_cross, mul_pos_iff_of_pos_right hx] at i2
  rw [clockwise_iff h hl, clockwise_iff h' hl']
  have j1 : cross p v q < 0 ↔ ¬ 0 < cross p v q := ⟨fun k => not_lt.mpr k.le, fun k => lt_of_le_of_ne (not_lt.mp k) hn⟩
  have j2 : cross p' v' q' < 0 ↔ ¬ 0 < cross p' v' q' :=
    ⟨fun k => not_lt.mpr k.le, fun k => lt_of_le_of_ne (not_lt.mp k) hn'⟩
  rw [j1, j2]
  simp only [hx, true_iff] at i1
  exact sign_table i1 i2

theorem counterclockwise_iff {c : Contour K} (h : c.Simple) : Counterclockwise c ↔ ¬ c.Clockwise := by
  obtain ⟨p, v, q, hl, hn⟩ := h.leastCorner
  rw [clockwise_iff h hl, not_lt]
  refine ⟨fun ⟨p', v', q', hl', h'⟩ => ?_, fun h' => ⟨p, v, q, hl, lt_of_le_of_ne h' hn.symm⟩⟩
  by_contra hcon
  exact absurd ((clockwise_iff h hl').mp ⟨p, v, q, hl, not_le.mp hcon⟩) h'.not_gt

theorem clockwise_rotate {c d : Contour K} {k : Nat} (h : c.vertices = d.vertices.rotate k) (hd : d.Clockwise) :
    c.Clockwise := by
  obtain ⟨p, v, q, hl, hn⟩ := hd
  obtain ⟨vs⟩ := c
  simp only at h
  exact ⟨p, v, q, h ▸ hl.rotate k, hn⟩

theorem cross_ends (p v q : Point K) : cross q v p = -cross p v q := by simp only [cross]; ring

theorem clockwise_reverse {c d : Contour K} {k : Nat} (h : c.vertices = (d.vertices.rotate k).reverse)
    (hd : Counterclockwise d) : c.Clockwise := by
  obtain ⟨p, v, q, hl, hn⟩ := hd
  obtain ⟨vs⟩ := c
  simp only at h
  have := (hl.rotate k).reverse
  simp only [← h] at this
  exact ⟨q, v, p, this, by rw [cross_ends]; linarith⟩

section

variable {f : Affine K} (hf : f.det ≠ 0)

include hf

theorem exists₂_apply {P Q : Point K → Point K → Prop} (h : ∀ a b, P (f.apply a) (f.apply b) ↔ Q a b) :
    (∃ a b, P a b) ↔ ∃ a b, Q a b := by
  rw [(affine_surj hf).exists]
  refine exists_congr fun a => ?_
  rw [(affine_surj hf).exists]
  exact exists_congr fun b => h a b

theorem exists₃_apply {P Q : Point K → Point K → Point K → Prop}
    (h : ∀ a b d, P (f.apply a) (f.apply b) (f.apply d) ↔ Q a b d) : (∃ a b d, P a b d) ↔ ∃ a b d, Q a b d := by
  rw [(affine_surj hf).exists]
  exact exists_congr fun a => exists₂_apply hf fun b d => h a b d

omit hf in
theorem mul_neg_of_pos {d : K} (hd : 0 < d) {x : K} : d * x < 0 ↔ x < 0 := by
  rw [← neg_pos, ← mul_neg, mul_pos_iff_of_pos_left hd, neg_pos]

theorem affine_mem_edges (c : Contour K) (a b : Point K) :
    (⟨f.apply a, f.apply b⟩ : Segment K) ∈ (f.contour c).edgeList ↔ ⟨a, b⟩ ∈ c.edgeList := by
  rw [affine_edges, List.mem_map]
  constructor
  · rintro ⟨⟨x, y⟩, h, e⟩
    simp only [Affine.segment, Segment.mk.injEq, (affine_inj hf).eq_iff] at e
    obtain ⟨rfl, rfl⟩ := e
    exact h
  · exact fun h => ⟨_, h, rfl⟩

theorem affine_mem_vertices (c : Contour K) (p : Point K) : f.apply p ∈ (f.contour c).vertices ↔ p ∈ c.vertices :=
  List.mem_map_of_injective (affine_inj hf)

theorem affine_crossesEdges (c : Contour K) (s : Segment K) :
    CrossesEdges (f.contour c) (f.segment s) ↔ CrossesEdges c s := by
  have i := affine_inj hf
  have hd : 0 < f.det * f.det := mul_self_pos.mpr hf
  unfold CrossesEdges
  refine or_congr ?_ ?_
  · simp only [affine_edges, List.mem_map, exists_exists_and_eq_and]
    refine exists_congr fun e => and_congr_right fun _ => ?_
    rw [(affine_surj hf).exists]
    simp only [affine_segment_pts, ← Set.image_inter i, ← Set.image_singleton, (Set.image_injective.mpr i).eq_iff,
      affine_isEndpoint hf]
  · refine exists₃_apply hf fun a w b => ?_
    simp only [affine_mem_edges hf, affine_segment_pts, i.mem_set_image, affine_isEndpoint hf]
    have : cross (f.segment s).start (f.segment s).finish (f.apply a) *
        cross (f.segment s).start (f.segment s).finish (f.apply b) =
        f.det * f.det * (cross s.start s.finish a * cross s.start s.finish b) := by
      simp only [Affine.segment, affine_cross]; ring
    rw [this, mul_neg_of_pos hd]

theorem affine_isPart (c : Contour K) (s : Segment K) :
    (∃ e ∈ (f.contour c).edgeList, (f.segment s).pts ⊆ e.pts) ↔ ∃ e ∈ c.edgeList, s.pts ⊆ e.pts := by
  simp only [affine_edges, List.mem_map, exists_exists_and_eq_and, affine_segment_pts,
    Set.image_subset_image_iff (affine_inj hf)]

theorem affine_outwards (c : Contour K) (p q : Point K) :
    (f.contour c).Outwards (f.apply p) (f.apply q) ↔ c.Outwards p q := by
  simp only [Contour.Outwards, ← affine_lerp, affine_exterior hf, (affine_inj hf).mem_set_image]

theorem affine_misread (c : Contour K) (p a w : Point K) :
    (f.contour c).Misread (f.apply p) (f.apply a) (f.apply w) ↔ c.Misread p a w := by
  have o : ∀ (o : Option (Point K)) x, o.map f.apply = some (f.apply x) ↔ o = some x := fun o x =>
    (Option.map_injective (affine_inj hf)).eq_iff (b := some x)
  simp only [Contour.Misread, affine_mem_edges hf]
  simp only [Affine.contour, List.length_map, List.getElem?_map, o]

theorem affine_turn (c : Contour K) (w : Point K) (P : K → Prop) :
    (∃ a b, ⟨a, f.apply w⟩ ∈ (f.contour c).edgeList ∧ ⟨f.apply w, b⟩ ∈ (f.contour c).edgeList ∧
      P (cross a (f.apply w) b)) ↔
    ∃ a b, ⟨a, w⟩ ∈ c.edgeList ∧ ⟨w, b⟩ ∈ c.edgeList ∧ P (f.det * cross a w b) := by
  refine exists₂_apply hf fun a b => ?_
  simp only [affine_mem_edges hf, affine_cross]

theorem affine_last (c : Contour K) (w : Point K) :
    (f.contour c).vertices.getLast? = some (f.apply w) ↔ c.vertices.getLast? = some w := by
  simp only [Affine.contour, List.getLast?_map]
  exact (Option.map_injective (affine_inj hf)).eq_iff (b := some w)

omit hf in
/-- Maps which keep the orientation. -/
theorem affine_seemsOutside (hd : 0 < f.det) {c : Contour K} (h : c.Simple) (s : Segment K) :
    (f.contour c).SeemsOutside (f.segment s) ↔ c.SeemsOutside s := by
  have hf : f.det ≠ 0 := hd.ne'
  have i := affine_inj hf
  have k : ∀ x, f.det * x < 0 ↔ x < 0 := fun x => mul_neg_of_pos hd
  have k' : ∀ x, 0 < f.det * x ↔ 0 < x := fun x => mul_pos_iff_of_pos_left hd
  have hcw : (f.contour c).Clockwise ↔ c.Clockwise := by rw [affine_clockwise hf h]; simp [hd]
  have he : (f.contour c).EndSeems (f.apply s.finish) (f.apply s.start) ↔ c.EndSeems s.finish s.start := by
    simp only [Contour.EndSeems, hcw, affine_mem_vertices hf, affine_outwards hf]
    refine and_congr_left fun _ => imp_congr_right fun _ => exists₂_apply hf fun a w => ?_
    simp only [affine_misread hf, affine_cross, k]
  have hs : (f.contour c).StartSeems (f.apply s.start) (f.apply s.finish) ↔ c.StartSeems s.start s.finish := by
    simp only [Contour.StartSeems, Contour.NotLeft, hcw, affine_mem_vertices hf, affine_outwards hf,
      affine_turn hf c s.start (fun x => ¬ 0 < x), ne_eq, affine_last hf, k']
    refine and_congr_left fun _ => imp_congr_right fun _ => exists₂_apply hf fun a w => ?_
    simp only [affine_misread hf, affine_cross, k]
  unfold Contour.SeemsOutside
  simp only [Affine.segment, he, hs, affine_exterior hf, affine_contour_pts, i.mem_set_image]

end

variable {context : Context K} (hc : context.Exact)

include hc

/-- C84: an affine map which keeps the orientation does not change what `segment_in_region` answers. -/
theorem C84_segment_in_region {f : Affine K} (hd : 0 < f.det) {s : Segment K} (hs : s.Nondegenerate) {c : Region K}
    (h : Contour.Simple c) :
    planar.segmentInRegion (f.segment s) (f.contour c) context = planar.segmentInRegion s c context := by
  have hf : f.det ≠ 0 := hd.ne'
  have i := affine_inj hf
  refine answers_eq (C83_segment_in_region hc ((affine_nondegenerate hf s).mpr hs) (affine_simple hf h))
    (C83_segment_in_region hc hs h) fun q => ?_
  change SegmentAnswer (CrossesEdges _ _) _ _ _ _ _ _ _ ↔ SegmentAnswer (CrossesEdges _ _) _ _ _ _ _ _ _
  simp only [SegmentAnswer, affine_crossesEdges hf, affine_isPart hf, affine_seemsOutside hd h]
  simp only [affine_segment_pts, affine_contour_pts, affine_interior hf, affine_exterior hf,
    Set.image_subset_image_iff i, ← Set.image_inter i, Set.image_nonempty]

omit hc in
theorem segmentInPolygon_congr {s t : Segment K} {g k : Polygon K}
    (hb : planar.segmentInRegion s g.border context = planar.segmentInRegion t k.border context)
    (hn : g.holes = [] ↔ k.holes = [])
    (hh : planar.segmentInMultiregion s g.holes context = planar.segmentInMultiregion t k.holes context) :
    planar.segmentInPolygon s g context = planar.segmentInPolygon t k context := by
  unfold planar.segmentInRegion at hb
  unfold planar.segmentInMultiregion at hh
  unfold planar.segmentInPolygon polygon.relateSegment
  simp only [hb, hh, ne_eq, hn]

/-- C84: `segment_in_polygon`. -/
theorem C84_segment_in_polygon {f : Affine K} (hd : 0 < f.det) {s : Segment K} (hs : s.Nondegenerate) {g : Polygon K}
    (h : g.Valid) : planar.segmentInPolygon (f.segment s) (f.polygon g) context = planar.segmentInPolygon s g context :=
  segmentInPolygon_congr (C84_segment_in_region hc hd hs h.border)
    (by simp [Affine.polygon, Affine.multiregion]) (C78_segment_in_multiregion hd.ne' hc hs h.holes)

/-! ### Other lists of vertices -/

omit hc

theorem mem_edges_reverse (ws : List (Point K)) (k : Nat) (a b : Point K) :
    (⟨a, b⟩ : Segment K) ∈ (⟨(ws.rotate k).reverse⟩ : Contour K).edgeList ↔ ⟨b, a⟩ ∈ (⟨ws⟩ : Contour K).edgeList := by
  rw [Contour.edgeList_reverse, Contour.edgeList_rotate]
  simp only [List.mem_reverse, List.mem_map, List.mem_rotate]
  constructor
  · rintro ⟨⟨x, y⟩, hx, e⟩
    cases e
    exact hx
  · exact fun hx => ⟨_, hx, rfl⟩

theorem sameCycle_crossesEdges {c d : Contour K} (h : c.SameCycle d) (s : Segment K) :
    CrossesEdges c s ↔ CrossesEdges d s := by
  have hr := sameCycle_sameUpTo h
  unfold CrossesEdges
  refine or_congr (sameUpTo_exists hr fun e e' r => ?_) ?_
  · simp only [rewritten_pts r, rewritten_isEndpoint r]
  · obtain ⟨vs⟩ := c
    obtain ⟨ws⟩ := d
    obtain ⟨k, hk | hk⟩ := h <;> simp only at hk <;> subst hk
    · simp only [Contour.edgeList_rotate, List.mem_rotate]
    · simp only [mem_edges_reverse]
      constructor
      · rintro ⟨a, w, b, h1, h2, h3, h4, h5⟩
        exact ⟨b, w, a, h2, h1, h3, h4, by rwa [mul_comm]⟩
      · rintro ⟨a, w, b, h1, h2, h3, h4, h5⟩
        exact ⟨b, w, a, h2, h1, h3, h4, by rwa [mul_comm]⟩

theorem sameCycle_isPart {c d : Contour K} (h : c.SameCycle d) (s : Segment K) :
    (∃ e ∈ c.edgeList, s.pts ⊆ e.pts) ↔ ∃ e ∈ d.edgeList, s.pts ⊆ e.pts :=
  sameUpTo_exists (sameCycle_sameUpTo h) fun e e' r => by rw [rewritten_pts r]

theorem sameCycle_outwards {c d : Contour K} (h : c.SameCycle d) (p q : Point K) : c.Outwards p q ↔ d.Outwards p q := by
  simp only [Contour.Outwards, sameCycle_exterior h]

/-- Turns of counterclockwise contours. -/
theorem turned_turn {f : Affine K} (hf : f.det ≠ 0) {c d : Contour K} (h : c.Simple) (hcc : Counterclockwise c)
    (hcd : Counterclockwise d) (hsame : (f.contour c).SameCycle d) (w : Point K) :
    (∃ a b, ⟨a, f.apply w⟩ ∈ d.edgeList ∧ ⟨f.apply w, b⟩ ∈ d.edgeList ∧ ¬ 0 < cross a (f.apply w) b) ↔
      ∃ a b, ⟨a, w⟩ ∈ c.edgeList ∧ ⟨w, b⟩ ∈ c.edgeList ∧ ¬ 0 < cross a w b := by
  have h' := affine_simple hf h
  have hd : d.Simple := h'.of_sameCycle (Contour.SameCycle.symm hsame)
  have c1 := (counterclockwise_iff h).mp hcc
  have c2 := affine_clockwise hf h
  have ht := affine_turn hf c w
  obtain ⟨k, hk | hk⟩ := hsame
  · have e : (f.contour c) = ⟨d.vertices.rotate k⟩ := congrArg Contour.mk hk
    have c3 : ¬ (f.contour c).Clockwise := by
      obtain ⟨p, v, q, hl, hn⟩ := hcd
      exact (counterclockwise_iff h').mp (e ▸ ⟨p, v, q, hl.rotate k, hn⟩)
    have hpos : 0 < f.det := by
      by_contra hcon
      exact c3 (c2.mpr (iff_of_false hcon c1))
    have := ht (fun x => ¬ 0 < x)
    simp only [mul_pos_iff_of_pos_left hpos] at this
    rw [← this, e]
    simp only [Contour.edgeList_rotate, List.mem_rotate]
  · have c3 : (f.contour c).Clockwise := clockwise_reverse hk hcd
    have hneg : f.det < 0 := by
      refine lt_of_le_of_ne (not_lt.mp fun hpos => ?_) hf
      exact c1 ((c2.mp c3).mp hpos)
    have := ht (fun x => ¬ x < 0)
    have e0 : ∀ x, f.det * x < 0 ↔ 0 < x := fun x => by simp [mul_neg_iff, hneg, hneg.not_gt]
    simp only [e0] at this
    rw [← this]
    have e : (f.contour c) = ⟨(d.vertices.rotate k).reverse⟩ := congrArg Contour.mk hk
    rw [e]
    simp only [mem_edges_reverse]
    constructor
    · rintro ⟨a, b, h1, h2, h3⟩
      exact ⟨b, a, h2, h1, by rwa [cross_ends, neg_lt_zero]⟩
    · rintro ⟨a, b, h1, h2, h3⟩
      exact ⟨b, a, h2, h1, by rwa [cross_ends, Left.neg_pos_iff]⟩

/-- A vertex at which the contour does not turn to the left, in two lists. -/
theorem turned_notLeft {f : Affine K} (hf : f.det ≠ 0) {c d : Contour K} (h : c.Simple) (hcc : Counterclockwise c)
    (hcd : Counterclockwise d) (hsame : (f.contour c).SameCycle d) {w : Point K}
    (hlast : (f.contour c).vertices.getLast? = d.vertices.getLast? ∨
      ∀ a b, ⟨a, w⟩ ∈ c.edgeList → ⟨w, b⟩ ∈ c.edgeList → 0 < cross a w b) :
    d.NotLeft (f.apply w) ↔ c.NotLeft w := by
  unfold Contour.NotLeft
  rw [turned_turn hf h hcc hcd hsame]
  rcases hlast with hlast | hlast
  · rw [← hlast, ne_eq, affine_last hf]
  · refine and_congr_left fun ⟨a, b, h1, h2, h3⟩ => absurd (hlast a b h1 h2) h3

theorem notLeft_vertices {c : Contour K} {w : Point K} (h : c.NotLeft w) : w ∈ c.vertices := by
  obtain ⟨-, a, b, h1, -⟩ := h
  obtain ⟨i, hi⟩ := List.mem_iff_getElem?.mp h1
  exact List.mem_of_getElem? (Contour.edge_finish c hi)

include hc

/-- C84: `segment_in_region` answers the same about the images under any affine bijection, and with another list of the
vertices, if the contour is listed counterclockwise before and after, and the segment does not start at a vertex at which
the contour does not turn left, unless the last vertex remains the same.  Directions do not matter if an endpoint is not
on the contour or both are no vertices. -/
theorem C84_segment_in_region_listed {f : Affine K} (hf : f.det ≠ 0) {s : Segment K} (hs : s.Nondegenerate)
    {c d : Region K} (h : Contour.Simple c) (hsame : (f.contour c).SameCycle d)
    (hside : s.start ∉ Contour.pts c ∨ s.finish ∉ Contour.pts c ∨
      (Counterclockwise c ∧ Counterclockwise d ∧ ((f.contour c).vertices.getLast? = (Contour.vertices d).getLast? ∨
        ∀ a b, ⟨a, s.start⟩ ∈ Contour.edgeList c → ⟨s.start, b⟩ ∈ Contour.edgeList c → 0 < cross a s.start b)) ∨
      s.start ∉ Contour.vertices c ∧ s.finish ∉ Contour.vertices c) :
    planar.segmentInRegion (f.segment s) d context = planar.segmentInRegion s c context := by
  have i := affine_inj hf
  have h' := affine_simple hf h
  have hd : Contour.Simple d := h'.of_sameCycle (Contour.SameCycle.symm hsame)
  have k : ∀ p, f.apply p ∈ Contour.pts d ↔ p ∈ Contour.pts c := fun p => by
    rw [← Contour.SameCycle.pts hsame, affine_contour_pts, i.mem_set_image]
  have kv : ∀ p, f.apply p ∈ Contour.vertices d ↔ p ∈ Contour.vertices c := fun p => by
    rw [← hsame.mem_vertices, affine_mem_vertices hf]
  have ke : ∀ p, f.apply p ∈ Contour.exterior d ↔ p ∈ Contour.exterior c := fun p => by
    rw [← sameCycle_exterior hsame, affine_exterior hf, i.mem_set_image]
  have ko : ∀ p q, Contour.Outwards d (f.apply p) (f.apply q) ↔ Contour.Outwards c p q := fun p q => by
    rw [← sameCycle_outwards hsame, affine_outwards hf]
  have hO : Contour.LooksOutside d (f.segment s) ↔ Contour.LooksOutside c s := by
    unfold Contour.LooksOutside
    simp only [Affine.segment, k, ke, ko]
    rcases hside with h1 | h1 | ⟨h1, h2, h3⟩ | ⟨h1, -⟩
    · simp [h1]
    · simp [h1]
    · rw [turned_notLeft hf h h1 h2 hsame h3]
    · rw [iff_false_intro fun h2 => h1 (notLeft_vertices h2),
        iff_false_intro fun h2 => h1 ((kv _).mp (notLeft_vertices (c := d) h2))]
  refine answers_eq (C75_segment_in_region hc ((affine_nondegenerate hf s).mpr hs) hd ?_)
    (C75_segment_in_region hc hs h ?_) fun q => ?_
  · simp only [Affine.segment, k, kv]
    tauto
  · tauto
  change SegmentAnswer (CrossesEdges _ _) _ _ _ _ _ _ _ ↔ SegmentAnswer (CrossesEdges _ _) _ _ _ _ _ _ _
  simp only [SegmentAnswer, hO, ← sameCycle_crossesEdges hsame, ← sameCycle_isPart hsame, affine_crossesEdges hf,
    affine_isPart hf, ← hsame.interior, ← sameCycle_exterior hsame, ← Contour.SameCycle.pts hsame]
  simp only [affine_segment_pts, affine_contour_pts, affine_interior hf, affine_exterior hf,
    Set.image_subset_image_iff i, ← Set.image_inter i, Set.image_nonempty]

/-- C84: `segment_in_polygon`; the holes may be listed in any way. -/
theorem C84_segment_in_polygon_listed {f : Affine K} (hf : f.det ≠ 0) {s : Segment K} (hs : s.Nondegenerate)
    {g k : Polygon K} (h : g.Valid) (hk : k.Valid) (hsame : (f.polygon g).Rewritten k)
    (hside : s.start ∉ g.border.pts ∨ s.finish ∉ g.border.pts ∨
      (Counterclockwise g.border ∧ Counterclockwise k.border ∧
        ((f.contour g.border).vertices.getLast? = k.border.vertices.getLast? ∨
        ∀ a b, ⟨a, s.start⟩ ∈ g.border.edgeList → ⟨s.start, b⟩ ∈ g.border.edgeList → 0 < cross a s.start b)) ∨
      s.start ∉ g.border.vertices ∧ s.finish ∉ g.border.vertices) :
    planar.segmentInPolygon (f.segment s) k context = planar.segmentInPolygon s g context := by
  refine segmentInPolygon_congr (C84_segment_in_region_listed hc hf hs h.border hsame.1 hside) ?_ ?_
  · rw [← sameUpTo_nil hsame.2]
    simp [Affine.polygon, Affine.multiregion]
  · rw [← C78_segment_in_multiregion hf hc hs h.holes]
    exact (C79_segment_in_multiregion hc ((affine_nondegenerate hf s).mpr hs) (affine_multiregion_valid hf h.holes) hk.holes
      (.inl rfl) hsame.2).symm

omit hc

/-! ### Concrete cases -/

/-- A step beside a notch, with its reflex corner as the last vertex. -/
def exampleLast : Contour ℚ := ⟨[⟨1, 4⟩, ⟨0, 4⟩, ⟨0, 0⟩, ⟨6, 0⟩, ⟨6, 2⟩, ⟨4, 2⟩, ⟨3, 1⟩, ⟨2, 2⟩]⟩

/-- The same contour, beginning elsewhere. -/
def exampleEarlier : Contour ℚ := ⟨[⟨2, 2⟩, ⟨1, 4⟩, ⟨0, 4⟩, ⟨0, 0⟩, ⟨6, 0⟩, ⟨6, 2⟩, ⟨4, 2⟩, ⟨3, 1⟩]⟩

/-- The condition about the last vertex is needed: both lists are counterclockwise, and differ by a rotation only. -/
theorem C84_counterexample_last :
    exampleLast.Simple ∧ Counterclockwise exampleLast ∧ Counterclockwise exampleEarlier ∧
      exampleLast.SameCycle exampleEarlier ∧
      planar.segmentInRegion ⟨⟨2, 2⟩, ⟨5, 2⟩⟩ exampleLast (reference.context : Context ℚ) = .ok .touch ∧
      planar.segmentInRegion ⟨⟨2, 2⟩, ⟨5, 2⟩⟩ exampleEarlier (reference.context : Context ℚ) = .ok .enclosed :=
  ⟨Contour.simple_of_check (by decide +kernel),
    ⟨⟨0, 4⟩, ⟨0, 0⟩, ⟨6, 0⟩, ⟨1, _, rfl, by decide +kernel⟩, by decide +kernel⟩,
    ⟨⟨0, 4⟩, ⟨0, 0⟩, ⟨6, 0⟩, ⟨2, _, rfl, by decide +kernel⟩, by decide +kernel⟩,
    ⟨1, .inl (by decide +kernel)⟩, by decide +kernel, by decide +kernel⟩

/-- A rotation by a right angle. -/
def turnF : Affine ℚ := ⟨0, -1, 1, 0, 0, 0⟩

/-- The answer about the diagonal of the clockwise pentagon is wrong (C83), and remains so if both are turned. -/
theorem C84_example :
    planar.segmentInRegion (turnF.segment ⟨⟨2, 5⟩, ⟨4, 0⟩⟩) (turnF.contour exampleTurned)
      (reference.context : Context ℚ) = .ok .touch := by
  rw [C84_segment_in_region reference.context_exact (s := ⟨⟨2, 5⟩, ⟨4, 0⟩⟩) (by decide +kernel)
    (show (⟨2, 5⟩ : Point ℚ) ≠ ⟨4, 0⟩ by decide +kernel) exampleTurned_simple]
  exact C83_example.1

/-- A reflection, with the image listed counterclockwise again and the same last vertex. -/
theorem C84_example_listed :
    let f : Affine ℚ := ⟨-1, 0, 0, 1, 0, 0⟩
    let d : Contour ℚ := ⟨[⟨-3, 1⟩, ⟨-4, 2⟩, ⟨-6, 2⟩, ⟨-6, 0⟩, ⟨0, 0⟩, ⟨0, 4⟩, ⟨-1, 4⟩, ⟨-2, 2⟩]⟩
    planar.segmentInRegion (f.segment ⟨⟨2, 2⟩, ⟨5, 2⟩⟩) d (reference.context : Context ℚ) = .ok .touch := by
  intro f d
  rw [C84_segment_in_region_listed reference.context_exact (s := ⟨⟨2, 2⟩, ⟨5, 2⟩⟩) (c := exampleLast) (by decide +kernel)
    (show (⟨2, 2⟩ : Point ℚ) ≠ ⟨5, 2⟩ by decide +kernel) C84_counterexample_last.1 ⟨7, .inr (by decide +kernel)⟩
    (.inr (.inr (.inl ⟨C84_counterexample_last.2.1,
      ⟨⟨-6, 2⟩, ⟨-6, 0⟩, ⟨0, 0⟩, ⟨2, _, rfl, by decide +kernel⟩, by decide +kernel⟩, .inl (by decide +kernel)⟩)))]
  exact C84_counterexample_last.2.2.2.2.1

end Orient.Props
