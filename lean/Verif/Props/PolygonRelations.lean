import Verif.Props.MultipolygonRelations
import Verif.Lemmas.Areal

/-! C25, C26: relations with polygons with holes. -/

set_option linter.unusedSectionVars false

namespace Orient.Props

variable {K : Type} [Field K] [LinearOrder K] [IsStrictOrderedRing K]

/-! ### regions -/

/-- C26: `region_in_polygon` always answers for a simple region and a valid polygon, and the answer is
the relation of the interiors and the boundaries, except that `ENCLOSED` may be answered instead of
`COMPONENT` if the interior of the polygon is not connected. -/
theorem C26_region_in_polygon {context : Context K} (hc : context.Exact) {a : Region K} {g : Polygon K}
    (ha : a.Simple) (hg : g.Valid) :
    ∃ r, planar.regionInPolygon a g context = .ok r ∧
      (CompoundRel a.interior a.pts a.exterior g.interior g.pts g.exterior r ∨
        (r = .enclosed ∧ ¬ g.Connected ∧
          CompoundRel a.interior a.pts a.exterior g.interior g.pts g.exterior .component)) := by
  unfold planar.regionInPolygon polygon.relateRegion
  obtain ⟨r, hr, h⟩ := C32_region_in_region hc ha hg.border
  have hr : region.relateRegionBoxed g.border a (context.contourBox g.border) (context.contourBox a)
    context = .ok r := hr
  obtain ⟨r', hr', h'⟩ := region_in_multiregion hc ha hg.holes
  have sa := ha.split
  have hd := hg.holed
  simp only [hr, hr', bind, Except.bind, pure, Except.pure]
  have sg : ∀ {r}, CompoundRel a.interior a.pts a.exterior
      (g.border.interior ∩ Multiregion.exterior g.holes) (g.border.pts ∪ Multiregion.pts g.holes)
      (g.border.exterior ∪ Multiregion.interior g.holes) r →
      CompoundRel a.interior a.pts a.exterior g.interior g.pts g.exterior r := fun h => h
  by_cases hne : g.holes = []
  · obtain ⟨e1, e2, e3⟩ := Polygon.no_holes hne
    rw [e1, e2, e3]
    have e : r' = .disjoint := by
      rw [hne] at hr'
      exact (Except.ok.inj hr').symm
    subst e
    refine ⟨r, ?_, .inl h⟩
    cases r <;> simp [hne]
  have nh := multiregion_nonempty hg.holes hne
  obtain ⟨d, hd'⟩ := List.exists_mem_of_ne_nil _ hne
  have hmt := hg.hole_meets hd'
  have over : r = .overlap → (g.interior ∩ a.interior).Nonempty ∧ (g.interior ∩ a.exterior).Nonempty := by
    rintro rfl
    obtain ⟨h1, h2, h3⟩ := h
    obtain ⟨z, z1, z2⟩ := ha.meets_inside h1 h2
    obtain ⟨w, w1, w2⟩ := ha.meets_outside hg.border h3
    exact ⟨((hg.near ha.areal (.inl z1)).1 z2).1, (hg.near ha.areal (.inl w1)).2 w2⟩
  have out := region_outside_table sa hd h over hg.border.exists_mem
    ⟨hmt.some, ⟨d, hd', hmt.some_mem.1⟩, hmt.some_mem.2⟩
  have inn := fun hr => region_inside_table sa hd (fun z hz => by
    have := hg.near ha.areal hz
    exact ⟨fun h => (this.1 h).1, this.2⟩) (ha.border_outside hg.border hr h) ha.exists_mem nh hr h h'
  have not_component : CompoundRel a.interior a.pts a.exterior g.interior g.pts g.exterior .component →
      ¬ g.Connected := by
    rintro ⟨h1, h2, h3⟩ hcn
    obtain ⟨x, hx⟩ := ha.interior_nonempty
    obtain ⟨y, y1, y2⟩ := h3
    obtain ⟨z, z1, z2⟩ := hg.meets hcn ⟨x, h1 hx, hx⟩ ⟨y, y2, y1⟩
    exact hg.split.ib z z2 (h2 z1)
  cases r
  case disjoint => exact ⟨_, rfl, .inl out⟩
  case touch => exact ⟨_, rfl, .inl out⟩
  case overlap => exact ⟨_, rfl, .inl out⟩
  case cover => exact ⟨_, rfl, .inl out⟩
  case encloses => exact ⟨_, rfl, .inl out⟩
  case composite => exact ⟨.encloses, by simp [hne], .inl out⟩
  case equal => exact ⟨.encloses, by simp [hne], .inl out⟩
  case component => exact absurd h (ha.not_component hg.border)
  case cross => exact h.elim
  case enclosed =>
    have inn := inn (.inr rfl)
    cases r'
    case disjoint => exact ⟨_, rfl, .inl inn⟩
    case touch =>
      refine ⟨_, rfl, ?_⟩
      rcases inn with h | h
      · exact .inl h
      · exact .inr ⟨rfl, not_component h, h⟩
    all_goals exact ⟨_, rfl, .inl inn⟩
  case within =>
    have inn := inn (.inl rfl)
    cases r'
    case touch =>
      refine ⟨_, rfl, ?_⟩
      rcases inn with h | h
      · exact .inl h
      · exact .inr ⟨rfl, not_component h, h⟩
    all_goals exact ⟨_, rfl, .inl inn⟩

/-- C26: for a polygon with a connected interior the answer of `region_in_polygon` is determined by the
relation of the interiors and the boundaries. -/
theorem C26_region_in_polygon_iff {context : Context K} (hc : context.Exact) {a : Region K}
    {g : Polygon K} (ha : a.Simple) (hg : g.Valid) (hcn : g.Connected) (r : Relation) :
    planar.regionInPolygon a g context = .ok r ↔
      CompoundRel a.interior a.pts a.exterior g.interior g.pts g.exterior r := by
  obtain ⟨r', hr, h | ⟨-, h, -⟩⟩ := C26_region_in_polygon hc ha hg
  · obtain ⟨b1, b2, b3⟩ := polygon_apart hg
    obtain ⟨k1, k2⟩ := polygon_nonempty hg
    rw [hr]
    constructor
    · intro e; cases e; exact h
    · intro h'
      rw [CompoundRel.unique ha.interior_nonempty ha.exists_mem k1 k2 a.interior_pts
        a.interior_exterior b1 b2 h h']
  · exact absurd hcn h

/-! ### contours -/

/-- A contour inside of the border of a connected polygon which has points outside of the holes has
points inside of the polygon. -/
theorem contour_meets {a : Contour K} {g : Polygon K} (ha : a.Simple) (hg : g.Valid)
    (hcn : g.Connected) (h1 : a.pts ∩ g.border.exterior = ∅) (h2 : (a.pts ∩ g.border.interior).Nonempty)
    (h3 : (a.pts ∩ Multiregion.exterior g.holes).Nonempty) : (a.pts ∩ g.interior).Nonempty := by
  have h1 := Set.eq_empty_iff_forall_notMem.mp h1
  have sa := ha.split
  have sb := hg.border.split
  have e1 : ∀ y ∈ a.interior, y ∉ g.border.exterior := by
    intro y y1 y2
    obtain ⟨z, z1, z2⟩ := hg.border.meets_outside ha ⟨y, y2, y1⟩
    exact h1 z ⟨z1, z2⟩
  have e2 : ∀ y ∈ a.interior, y ∉ g.border.pts := by
    intro y y1 y2
    obtain ⟨-, z, z1, z2⟩ := (hg.border.areal.near ha.areal y2).1 y1
    exact e1 z z2 z1
  have out : (g.interior ∩ a.exterior).Nonempty := by
    by_contra hn
    have sub : g.border.pts ⊆ a.pts := by
      intro z hz
      rcases sa.cover z with h | h | h
      · exact absurd hz (e2 z h)
      · exact h
      · exact absurd ((hg.near ha.areal (.inl hz)).2 h) hn
    obtain ⟨z, z1, z2⟩ := h2
    rw [← ha.pts_eq_of_subset hg.border sub] at z1
    exact sb.ib z z2 z1
  obtain ⟨w, w1, w2⟩ := h3
  obtain ⟨y, y1, y2⟩ : (a.interior ∩ Multiregion.exterior g.holes).Nonempty := by
    obtain ⟨M, om⟩ := hg.holes.areal
    by_cases hw : w ∈ segsPts (edgesOf g.holes)
    · exact absurd w2 (om.exterior · hw)
    · exact (ha.areal.near ⟨M, om⟩ w1).2 w2
  refine hg.meets hcn ⟨y, ⟨?_, y2⟩, y1⟩ out
  rcases sb.cover y with h | h | h
  · exact h
  · exact absurd h (e2 y y1)
  · exact absurd h (e1 y y1)

/-- C26: `contour_in_polygon` always answers for a simple contour and a valid polygon, and the answer is
the relation of the contour to the interior, the boundary and the exterior, with two exceptions: `CROSS`
may be answered instead of `TOUCH` if the interior of the polygon is not connected or a vertex of a
hole is in the middle of an edge of another one, and `ENCLOSED` may be answered instead of `COMPONENT`
if the interior of the polygon is not connected. -/
theorem C26_contour_in_polygon {context : Context K} (hc : context.Exact) {a : Contour K} {g : Polygon K}
    (ha : a.Simple) (hg : g.Valid) :
    ∃ r, planar.contourInPolygon a g context = .ok r ∧
      (LinearCompoundRel a.pts g.interior g.pts g.exterior r ∨
        (r = .cross ∧ (¬ g.Connected ∨ ¬ Neat (g.holes.flatMap Contour.edgeList)) ∧
          LinearCompoundRel a.pts g.interior g.pts g.exterior .touch) ∨
        (r = .enclosed ∧ ¬ g.Connected ∧
          LinearCompoundRel a.pts g.interior g.pts g.exterior .component)) := by
  unfold planar.contourInPolygon polygon.relateContour
  obtain ⟨r, hr, h⟩ := C33_contour_in_region hc ha hg.border
  have hr : region.relateContourBoxed g.border a (context.contourBox a) context = .ok r := hr
  obtain ⟨r', hr', h'⟩ := contour_in_multiregion hc ha hg.holes
  simp only [hr, hr', bind, Except.bind, pure, Except.pure]
  by_cases hne : g.holes = []
  · obtain ⟨e1, e2, e3⟩ := Polygon.no_holes hne
    rw [e1, e2, e3]
    exact ⟨r, by simp [hne], .inl h⟩
  set q := if r = .enclosed ∨ r = .within then (match (generalizing := false) r' with
      | .disjoint => r
      | .touch => .enclosed
      | .cross => .cross
      | .component => .component
      | .enclosed => .touch
      | _ => .disjoint) else r with hq
  refine ⟨q, ?_, ?_⟩
  · rw [hq]
    by_cases hin : r = .enclosed ∨ r = .within
    · rw [if_pos ⟨hne, hin⟩, if_pos hin]
      cases r' <;> rfl
    · rw [if_neg fun h => hin h.2, if_neg hin]
  refine linear_table hg.holed h ha.exists_mem ?_ h' ?_ ?_ ?_ ?_
  · rintro rfl
    by_contra hn
    refine Contour.not_both_of_disjoint (a := a) (b := g.border) ?_ h.1 h.2
    exact Set.eq_empty_iff_forall_notMem.mpr fun x hx => hn ⟨x, hx.1, .inl hx.2⟩
  · intro hcn h1 h2
    obtain ⟨⟨z, z1, z2⟩, w, w1, w2⟩ := ha.both_symm hg.border ⟨h1, h2⟩
    exact hg.meets hcn ((hg.near ha.areal (.inl z1)).1 z2).1 ((hg.near ha.areal (.inl w1)).2 w2)
  · intro hcn h1 h2 _ h3
    exact contour_meets ha hg hcn (Set.eq_empty_iff_forall_notMem.mpr fun x hx => h1 x hx.1 hx.2) h2 h3
  · intro h1 h2
    rw [hq, if_neg (by simp [h1, h2])]
  · intro h1
    rw [hq, if_pos h1.symm]
    refine ⟨?_, ?_, ?_, ?_, ?_, ?_⟩ <;> (intro e; rw [e])

/-- C26: for a polygon with a connected interior whose holes meet each other only at common vertices the
answer of `contour_in_polygon` is determined by the relation to the interior, the boundary and the
exterior. -/
theorem C26_contour_in_polygon_iff {context : Context K} (hc : context.Exact) {a : Contour K}
    {g : Polygon K} (ha : a.Simple) (hg : g.Valid) (hcn : g.Connected)
    (neat : Neat (g.holes.flatMap Contour.edgeList)) (r : Relation) :
    planar.contourInPolygon a g context = .ok r ↔
      LinearCompoundRel a.pts g.interior g.pts g.exterior r := by
  obtain ⟨r', hr, h | ⟨-, h | h, -⟩ | ⟨-, h, -⟩⟩ := C26_contour_in_polygon hc ha hg
  · obtain ⟨b1, b2, b3⟩ := polygon_apart hg
    rw [hr]
    constructor
    · intro e; cases e; exact h
    · intro h'
      rw [LinearCompoundRel.unique ha.exists_mem b1 b2 b3 h h']
  · exact absurd hcn h
  · exact absurd neat h
  · exact absurd hcn h

/-! ### segments -/

/-- A segment from a hole to the border leads through the polygon, if they do not touch each other. -/
theorem segment_meets {s : Segment K} {g : Polygon K} (hg : g.Valid)
    (apart : g.border.pts ∩ Multiregion.pts g.holes = ∅) {p q : Point K} (hp : p ∈ s.pts) (hq : q ∈ s.pts)
    (h1 : p ∉ Multiregion.exterior g.holes) (h2 : q ∉ g.border.interior) :
    (s.pts ∩ g.interior).Nonempty := by
  have apart := Set.eq_empty_iff_forall_notMem.mp apart
  have hd := hg.holed
  have hq' : q ∈ Multiregion.exterior g.holes := by
    rcases hd.holes.cover q with h | h | h
    · exact absurd (hd.inner q h) h2
    · rcases hd.inside q h with h' | h'
      · exact absurd h' h2
      · exact absurd ⟨h', h⟩ (apart q)
    · exact h
  have hpq : p ≠ q := fun e => h1 (e ▸ hq')
  -- the last point of the holes
  obtain ⟨u, u0, u1, hu, hmax⟩ : ∃ u, 0 ≤ u ∧ u ≤ 1 ∧ lerp p q u ∈ Multiregion.pts g.holes ∧
      ∀ w, w ≤ 1 → lerp p q w ∈ Multiregion.pts g.holes → w ≤ u := by
    rw [← segsPts_edgesOf]
    refine exists_last hpq _ ?_
    by_contra hn
    refine h1 fun d hd' => ?_
    have none : ∀ z ∈ (⟨p, q⟩ : Segment K).pts, z ∉ Contour.pts d := by
      rintro z ⟨u, u0, u1, rfl⟩ hm
      exact hn ⟨u, u0, u1, by rw [segsPts_edgesOf]; exact ⟨d, hd', hm⟩⟩
    exact (Contour.exterior_iff_of_joined (.single none) (none _ (Segment.start_mem _))
      (none _ (Segment.finish_mem _))).mpr (hq' d hd')
  have hz : lerp p q u ∈ g.border.interior := (hd.inside _ hu).resolve_right fun h => apart _ ⟨h, hu⟩
  set z := lerp p q u with hzdef
  have hzq : q ≠ z := fun e => h2 (e ▸ hz)
  -- then the first point of the border
  obtain ⟨v, v0, v1, hv, hmax'⟩ : ∃ v, 0 ≤ v ∧ v ≤ 1 ∧ lerp q z v ∈ g.border.pts ∧
      ∀ w, w ≤ 1 → lerp q z w ∈ g.border.pts → w ≤ v := by
    refine exists_last hzq _ ?_
    by_contra hn
    refine h2 ((Contour.interior_iff_of_joined (.single ?_)).mp hz)
    rintro x hx hm
    rw [← Segment.pts_reverse] at hx
    obtain ⟨w, w0, w1, rfl⟩ := hx
    exact hn ⟨w, w0, w1, hm⟩
  have hv1 : v < 1 := lt_of_le_of_ne v1 fun e => by
    rw [e, lerp_one] at hv
    exact hd.border.ib _ hz hv
  set x := lerp q z ((v + 1) / 2) with hx
  have half : (v + 1) / 2 ≤ 1 ∧ 0 ≤ (v + 1) / 2 ∧ v < (v + 1) / 2 ∧ (v + 1) / 2 < 1 := by
    refine ⟨?_, ?_, ?_, ?_⟩ <;> linarith
  have zs : z ∈ s.pts := lerp_mem_pts hp hq u0 u1
  have xs : x ∈ s.pts := lerp_mem_pts hq zs half.2.1 half.1
  refine ⟨x, xs, ?_, fun d hd' => ?_⟩
  · refine (Contour.interior_iff_of_joined (.single ?_)).mp hz
    rintro y ⟨w, w0, w1, rfl⟩ hm
    have e : lerp z x w = lerp q z (1 + w * ((v + 1) / 2 - 1)) := by
      rw [← lerp_lerp, lerp_one]
    rw [e] at hm
    have := hmax' _ (by nlinarith) hm
    nlinarith
  · have hu1 : u < 1 := lt_of_le_of_ne u1 fun e => hzq (by rw [hzdef, e, lerp_one])
    have ex : x = lerp p q (1 + (v + 1) / 2 * (u - 1)) := by
      rw [← lerp_lerp, lerp_one]
    have none : ∀ y ∈ (⟨x, q⟩ : Segment K).pts, y ∉ Contour.pts d := by
      rintro y ⟨w, w0, w1, rfl⟩ hm
      have e : lerp x q w = lerp p q (1 + (v + 1) / 2 * (u - 1) + w * (1 - (1 + (v + 1) / 2 * (u - 1)))) := by
        rw [← lerp_lerp, lerp_one, ← ex]
      simp only at hm
      rw [e] at hm
      have k : (v + 1) / 2 * (u - 1) ≤ 0 := by nlinarith
      have k' : u - 1 < (v + 1) / 2 * (u - 1) := by nlinarith
      have := hmax _ (by nlinarith) ⟨d, hd', hm⟩
      nlinarith
    exact (Contour.exterior_iff_of_joined (.single none) (none _ (Segment.start_mem _))
      (none _ (Segment.finish_mem _))).mpr (hq' d hd')

/-- C26: if `segment_in_region` answers the right relation of the segment to the border then
`segment_in_polygon` answers the right relation to the polygon, with two exceptions: `CROSS` may be
answered instead of `TOUCH` if holes touch the border or a vertex of a hole is in the middle of an edge of
another one, and `ENCLOSED` may be answered instead of `COMPONENT` if holes touch the border. -/
theorem C26_segment_in_polygon {context : Context K} (hc : context.Exact) {s : Segment K} {g : Polygon K}
    (hs : s.Nondegenerate) (hg : g.Valid) {r : Relation}
    (hr : planar.segmentInRegion s g.border context = .ok r)
    (h : LinearCompoundRel s.pts g.border.interior g.border.pts g.border.exterior r) :
    ∃ r, planar.segmentInPolygon s g context = .ok r ∧
      (LinearCompoundRel s.pts g.interior g.pts g.exterior r ∨
        (r = .cross ∧ (¬ g.border.pts ∩ Multiregion.pts g.holes = ∅ ∨
            ¬ Neat (g.holes.flatMap Contour.edgeList)) ∧
          LinearCompoundRel s.pts g.interior g.pts g.exterior .touch) ∨
        (r = .enclosed ∧ ¬ g.border.pts ∩ Multiregion.pts g.holes = ∅ ∧
          LinearCompoundRel s.pts g.interior g.pts g.exterior .component)) := by
  unfold planar.segmentInPolygon polygon.relateSegment
  have hr : region.relateSegment g.border s context = .ok r := hr
  obtain ⟨r', hr', h'⟩ := C37_segment_in_multiregion hc hs hg.holes
  have hr' : multiregion.relateSegment g.holes s context = .ok r' := hr'
  simp only [hr, hr', bind, Except.bind, pure, Except.pure]
  by_cases hne : g.holes = []
  · obtain ⟨e1, e2, e3⟩ := Polygon.no_holes hne
    rw [e1, e2, e3]
    exact ⟨r, by simp [hne], .inl h⟩
  set q := if r = .within ∨ r = .enclosed then (match (generalizing := false) r' with
      | .disjoint => r
      | .touch => .enclosed
      | .enclosed => .touch
      | .within => .disjoint
      | relation => relation) else r with hq
  have hd := hg.holed
  refine ⟨q, ?_, ?_⟩
  · rw [hq]
    by_cases hin : r = .within ∨ r = .enclosed
    · rw [if_pos ⟨hne, hin⟩, if_pos hin]
      cases r' <;> rfl
    · rw [if_neg fun h => hin h.2, if_neg hin]
  refine linear_table hd h ⟨_, s.start_mem⟩ ?_ h' ?_ ?_ ?_ ?_
  · rintro rfl
    by_contra hn
    obtain ⟨⟨p, p1, p2⟩, q, q1, q2⟩ := h
    refine Contour.not_both ((Contour.interior_iff_of_joined (.single ?_)).mp p2) q2
    exact fun z hz h' => hn ⟨z, Segment.pts_subset p1 q1 hz, .inl h'⟩
  · rintro ha ⟨p, p1, p2⟩ ⟨q, q1, q2⟩
    by_cases hp : p ∈ Multiregion.exterior g.holes
    · exact ⟨p, p1, p2, hp⟩
    · exact segment_meets hg ha p1 q1 hp fun h => hd.border.ie q h q2
  · rintro ha h1 - ⟨p, p1, p2⟩ ⟨q, q1, q2⟩
    by_cases hq : q ∈ g.border.interior
    · exact ⟨q, q1, hq, q2⟩
    · exact segment_meets hg ha p1 q1 p2 hq
  · intro h1 h2
    rw [hq, if_neg (by simp [h1, h2])]
  · intro h1
    rw [hq, if_pos h1]
    refine ⟨?_, ?_, ?_, ?_, ?_, ?_⟩ <;> (intro e; rw [e])

end Orient.Props
