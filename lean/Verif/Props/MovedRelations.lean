import Verif.Props.Moved
import Verif.Props.SameSets
import Verif.Props.PolygonExamples

/-! C53: moving, scaling, rotating, reflecting or shearing both operands does not change the answers. -/

set_option linter.unusedSectionVars false

namespace Orient.Props

variable {K : Type} [Field K] [LinearOrder K] [IsStrictOrderedRing K]

theorem affine_multisegment (f : Affine K) (m : Multisegment K) :
    segsPts (f.multisegment m).segments = f.apply '' segsPts m.segments := affine_segsPts f m.segments

section

variable {context : Context K} (hc : context.Exact) {f : Affine K} (hf : f.det ≠ 0)

include hc hf

/-! ### Points -/

/-- C53: `point_in_segment`. -/
theorem C53_point_in_segment (p : Point K) (s : Segment K) :
    planar.pointInSegment (f.apply p) (f.segment s) context = planar.pointInSegment p s context := by
  have h := C01_point_in_segment hc p s
  have h' := C01_point_in_segment hc (f.apply p) (f.segment s)
  rw [affine_segment_pts, (affine_inj hf).mem_set_image] at h'
  cases e : planar.pointInSegment p s context <;>
    cases e' : planar.pointInSegment (f.apply p) (f.segment s) context <;> simp_all

/-- C53: `point_in_multisegment`. -/
theorem C53_point_in_multisegment (p : Point K) (m : Multisegment K) :
    planar.pointInMultisegment (f.apply p) (f.multisegment m) context =
      planar.pointInMultisegment p m context := by
  have h := C03_point_in_multisegment hc p m
  have h' := C03_point_in_multisegment hc (f.apply p) (f.multisegment m)
  have k : (∃ s ∈ (f.multisegment m).segments, f.apply p ∈ s.pts) ↔ ∃ s ∈ m.segments, p ∈ s.pts := by
    simp only [Affine.multisegment, List.mem_map, exists_exists_and_eq_and, affine_segment_pts,
      (affine_inj hf).mem_set_image]
  rw [k, ← h.1] at h'
  have h1 := h.2
  have h2 := h'.2
  have h3 := h'.1
  cases e : planar.pointInMultisegment p m context <;>
    cases e' : planar.pointInMultisegment (f.apply p) (f.multisegment m) context <;> simp_all <;>
    grind

/-- C53: `point_in_contour`. -/
theorem C53_point_in_contour (p : Point K) (c : Contour K) :
    planar.pointInContour (f.apply p) (f.contour c) context = planar.pointInContour p c context := by
  have h1 := contour_boundary hc p c
  have h2 := contour_boundary hc (f.apply p) (f.contour c)
  have k1 := (C07_point_in_contour hc p c).2
  have k2 := (C07_point_in_contour hc (f.apply p) (f.contour c)).2
  rw [affine_contour_pts, (affine_inj hf).mem_set_image, ← h1] at h2
  cases e : planar.pointInContour p c context <;>
    cases e' : planar.pointInContour (f.apply p) (f.contour c) context <;> simp_all

/-- C53: `point_in_region`. -/
theorem C53_point_in_region (p : Point K) (c : Region K) :
    planar.pointInRegion (f.apply p) (f.contour c) context = planar.pointInRegion p c context := by
  rw [C10_point_in_region_unique hc, affine_locates hf hc]
  exact (C10_point_in_region_unique hc _ _ _).mp rfl

/-- C53: `point_in_multiregion`. -/
theorem C53_point_in_multiregion (p : Point K) (m : Multiregion K) :
    planar.pointInMultiregion (f.apply p) (f.multiregion m) context = planar.pointInMultiregion p m context := by
  have h : ∀ c, region.locatePoint (f.contour c) (f.apply p) context = region.locatePoint c p context :=
    fun c => C53_point_in_region hc hf p c
  unfold planar.pointInMultiregion Affine.multiregion
  induction m with
  | nil => rfl
  | cons c m ih =>
    rw [List.map_cons]
    unfold multiregion.locatePoint
    rw [h, ih]

/-- C53: `point_in_polygon`. -/
theorem C53_point_in_polygon (p : Point K) (g : Polygon K) :
    planar.pointInPolygon (f.apply p) (f.polygon g) context = planar.pointInPolygon p g context := by
  have h : ∀ c, region.locatePoint (f.contour c) (f.apply p) context = region.locatePoint c p context :=
    fun c => C53_point_in_region hc hf p c
  have k : ∀ m : Multiregion K, polygon.locateInHoles context (f.apply p) (List.map f.contour m) =
      polygon.locateInHoles context p m := by
    intro m
    induction m with
    | nil => rfl
    | cons c m ih =>
      rw [List.map_cons]
      unfold polygon.locateInHoles
      rw [h, ih]
  unfold planar.pointInPolygon polygon.locatePoint Affine.polygon Affine.multiregion
  simp only [h, k]

/-- C53: `point_in_multipolygon`. -/
theorem C53_point_in_multipolygon (p : Point K) (m : Multipolygon K) :
    planar.pointInMultipolygon (f.apply p) (f.multipolygon m) context =
      planar.pointInMultipolygon p m context := by
  have h : ∀ g, polygon.locatePoint (f.polygon g) (f.apply p) context = polygon.locatePoint g p context :=
    fun g => C53_point_in_polygon hc hf p g
  unfold planar.pointInMultipolygon multipolygon.locatePoint Affine.multipolygon
  generalize m.polygons = l
  induction l with
  | nil => rfl
  | cons g l ih =>
    simp only [List.map_cons] at ih ⊢
    unfold multipolygon.locateIn
    rw [h, ih]

/-! ### Segments, multisegments and contours -/

/-- C53: `segment_in_segment`. -/
theorem C53_segment_in_segment {a b : Segment K} (va : a.Nondegenerate) (vb : b.Nondegenerate) :
    planar.segmentInSegment (f.segment a) (f.segment b) context = planar.segmentInSegment a b context := by
  have h := hc.relation_eq_iff va vb (planar.segmentInSegment a b context)
  have h' := hc.relation_eq_iff ((affine_nondegenerate hf a).mpr va) ((affine_nondegenerate hf b).mpr vb)
    (planar.segmentInSegment a b context)
  exact h'.mpr ((affine_segmentsRel hf a b _).mpr (h.mp rfl))

/-- C53: `segment_in_multisegment`. -/
theorem C53_segment_in_multisegment {a : Segment K} {b : Multisegment K} (va : a.Nondegenerate)
    (vb : SegmentsValid b.segments) (nb : b.segments ≠ []) :
    planar.segmentInMultisegment (f.segment a) (f.multisegment b) context =
      planar.segmentInMultisegment a b context := by
  obtain ⟨l⟩ := b
  have va' := (affine_nondegenerate hf a).mpr va
  rcases l with - | ⟨t, - | ⟨t', l⟩⟩
  · exact absurd rfl nb
  · have vt : t.Nondegenerate := vb.1 t (by simp)
    refine (C05_single hc va' ((affine_nondegenerate hf t).mpr vt) _).mpr ?_
    rw [affine_segment_pts, affine_segment_pts, affine_linearRel hf, (affine_inj hf).image_injective.eq_iff]
    exact (C05_single hc va vt _).mp rfl
  · refine (C05_segment_in_multisegment hc va' (affine_segmentsValid hf vb) (by simp) _).mpr ?_
    rw [affine_segsPts, affine_linearRel hf]
    exact (C05_segment_in_multisegment hc va vb (by simp) _).mp rfl

/-- C53: `segment_in_contour`. -/
theorem C53_segment_in_contour {a : Segment K} {b : Contour K} (va : a.Nondegenerate) (vb : b.Simple) :
    planar.segmentInContour (f.segment a) (f.contour b) context = planar.segmentInContour a b context := by
  have va' := (affine_nondegenerate hf a).mpr va
  obtain ⟨r, hr⟩ : ∃ r, ContourRel a b r := by
    by_cases h1 : ∃ e ∈ b.edgeList, a.pts ⊆ e.pts
    · exact ⟨.component, h1⟩
    by_cases h2 : SharesPiece a.pts b.pts
    · exact ⟨.overlap, h1, h2⟩
    by_cases h3 : a.CrossedBy b.pts
    · exact ⟨.cross, h2, h3⟩
    by_cases h4 : (a.pts ∩ b.pts).Nonempty
    · exact ⟨.touch, h2, h3, h4⟩
    · exact ⟨.disjoint, Set.not_nonempty_iff_eq_empty.mp h4⟩
  rw [(C08_segment_in_contour hc va vb r).mpr hr, C08_segment_in_contour hc va' (affine_simple hf vb),
    affine_contourRel hf]
  exact hr

/-- C53: `segment_in_region` for segments which do not run along the contour (C43). -/
theorem C53_segment_in_region {a : Segment K} {b : Region K} (va : a.Nondegenerate) (vb : Contour.Simple b)
    (hno : ¬ SharesPiece a.pts (Contour.pts b))
    (hside : (Counterclockwise b ∧ Counterclockwise (f.contour b)) ∨ a.start ∉ Contour.pts b ∨
      a.finish ∉ Contour.pts b ∨ (a.start ∉ Contour.vertices b ∧ a.finish ∉ Contour.vertices b)) :
    planar.segmentInRegion (f.segment a) (f.contour b) context = planar.segmentInRegion a b context := by
  have i := affine_inj hf
  have va' := (affine_nondegenerate hf a).mpr va
  have k : ∀ p, f.apply p ∈ (f.contour b).pts ↔ p ∈ Contour.pts b := fun p => by
    rw [affine_contour_pts, i.mem_set_image]
  have v : ∀ p, f.apply p ∈ (f.contour b).vertices ↔ p ∈ Contour.vertices b := fun p =>
    List.mem_map_of_injective i
  have h1 : Counterclockwise b ∨ a.start ∉ Contour.pts b ∨ a.finish ∉ Contour.pts b ∨
      (a.start ∉ Contour.vertices b ∧ a.finish ∉ Contour.vertices b) := hside.imp_left And.left
  have h2 : Counterclockwise (f.contour b) ∨ (f.segment a).start ∉ (f.contour b).pts ∨
      (f.segment a).finish ∉ (f.contour b).pts ∨
      ((f.segment a).start ∉ (f.contour b).vertices ∧ (f.segment a).finish ∉ (f.contour b).vertices) := by
    simp only [Affine.segment, k, v]
    exact hside.imp_left And.right
  obtain ⟨q, hq, -⟩ := C43_segment_in_region hc va vb hno h1
  refine (eq_of_iff ⟨q, hq⟩ fun r => ?_).symm
  rw [C43_segment_in_region_iff hc va vb hno h1, C43_segment_in_region_iff hc va' (affine_simple hf vb)
    (by rw [affine_segment_pts, affine_contour_pts, affine_sharesPiece hf]; exact hno) h2]
  unfold SegmentRegionRel
  rw [affine_segment_pts, affine_interior hf, affine_contour_pts, affine_exterior hf,
    linearCompoundRel_image i]

/-- C53: `multisegment_in_multisegment`, `TOUCH` and `CROSS` not told apart. -/
theorem C53_multisegment_in_multisegment {a b : Multisegment K} (na : a.segments ≠ []) (nb : b.segments ≠ [])
    (va : SegmentsValid a.segments) (vb : SegmentsValid b.segments) :
    planar.multisegmentInMultisegment (f.multisegment a) (f.multisegment b) context =
        planar.multisegmentInMultisegment a b context ∨
      (planar.multisegmentInMultisegment (f.multisegment a) (f.multisegment b) context ∈
          [.ok .cross, .ok .touch] ∧
        planar.multisegmentInMultisegment a b context ∈ [.ok .cross, .ok .touch]) := by
  have i := affine_inj hf
  have na' : (f.multisegment a).segments ≠ [] := by simpa [Affine.multisegment] using na
  have nb' : (f.multisegment b).segments ≠ [] := by simpa [Affine.multisegment] using nb
  obtain ⟨r, hr, hs⟩ := C18_multisegment_in_multisegment hc na nb va vb
  obtain ⟨r', hr', -⟩ := C18_multisegment_in_multisegment hc na' nb' (affine_segmentsValid hf va)
    (affine_segmentsValid hf vb)
  have h := C18_multisegment_in_multisegment_iff hc na nb va vb
  have h' := C18_multisegment_in_multisegment_iff hc na' nb' (affine_segmentsValid hf va)
    (affine_segmentsValid hf vb)
  simp only [affine_multisegment, ssubset_iff_subset_not_subset, Set.image_subset_image_iff i,
    ← Set.image_inter i, Set.image_nonempty, Set.image_eq_empty, i.image_injective.eq_iff,
    affine_sharesPiece hf] at h'
  simp only [ssubset_iff_subset_not_subset] at h
  simp only [← h.1, ← h.2.1, ← h.2.2.1, ← h.2.2.2.1, ← h.2.2.2.2.1, ← h.2.2.2.2.2] at h'
  rw [hr, hr'] at h' ⊢
  cases r <;> first | exact hs.elim | simp_all

/-- C53: `multisegment_in_multisegment`, where it tells `TOUCH` from `CROSS` (C51). -/
theorem C53_multisegment_in_multisegment_two {a b : Multisegment K} (na : a.segments ≠ [])
    (nb : b.segments ≠ []) (va : SegmentsValid a.segments) (vb : SegmentsValid b.segments)
    (two : ∀ p, CrossesAt (segsPts a.segments) (segsPts b.segments) p →
      AtMostTwoWays (segsPts b.segments) p ∨ ∃ u ∈ a.segments, ∃ v ∈ b.segments, u.Inner p ∧ v.Inner p) :
    planar.multisegmentInMultisegment (f.multisegment a) (f.multisegment b) context =
      planar.multisegmentInMultisegment a b context := by
  have i := affine_inj hf
  have na' : (f.multisegment a).segments ≠ [] := by simpa [Affine.multisegment] using na
  have nb' : (f.multisegment b).segments ≠ [] := by simpa [Affine.multisegment] using nb
  have inner : ∀ (u : Segment K) p, u.Inner p → (f.segment u).Inner (f.apply p) := fun u p h =>
    ⟨by rw [affine_segment_pts]; exact ⟨p, h.1, rfl⟩, by rw [affine_isEndpoint hf]; exact h.2⟩
  have h := C51_multisegment_in_multisegment hc na nb va vb two
  have h' := C51_multisegment_in_multisegment hc na' nb' (affine_segmentsValid hf va)
    (affine_segmentsValid hf vb) (by
      intro p hp
      obtain ⟨p, rfl⟩ := affine_surj hf p
      rw [affine_multisegment, affine_multisegment, affine_crossesAt hf] at hp
      rw [affine_multisegment]
      refine (two p hp).imp (affine_atMostTwoWays hf) ?_
      rintro ⟨u, hu, v, hv, k1, k2⟩
      exact ⟨_, List.mem_map.mpr ⟨u, hu, rfl⟩, _, List.mem_map.mpr ⟨v, hv, rfl⟩, inner u p k1, inner v p k2⟩)
  have x : (∃ p, CrossesAt (f.apply '' segsPts a.segments) (f.apply '' segsPts b.segments) p) ↔
      ∃ p, CrossesAt (segsPts a.segments) (segsPts b.segments) p := by
    rw [(affine_surj hf).exists]
    simp only [affine_crossesAt hf]
  simp only [affine_multisegment, affine_sharesPiece hf, x, ← Set.image_inter i, Set.image_nonempty] at h'
  simp only [← h.1, ← h.2] at h'
  rcases C53_multisegment_in_multisegment hc hf na nb va vb with h1 | ⟨h1, h2⟩
  · exact h1
  · simp only [List.mem_cons, List.not_mem_nil, or_false] at h1 h2
    rcases h1 with h1 | h1 <;> rcases h2 with h2 | h2 <;> simp_all

/-- C53: `multisegment_in_contour`. -/
theorem C53_multisegment_in_contour {a : Multisegment K} {b : Contour K} (na : a.segments ≠ [])
    (va : SegmentsValid a.segments) (vb : b.Simple) :
    planar.multisegmentInContour (f.multisegment a) (f.contour b) context =
      planar.multisegmentInContour a b context := by
  have i := affine_inj hf
  have na' : (f.multisegment a).segments ≠ [] := by simpa [Affine.multisegment] using na
  have va' := affine_segmentsValid hf va
  have vb' := affine_simple hf vb
  obtain ⟨r, hr, h⟩ := C18_multisegment_in_contour hc na vb.ne_nil va vb.valid
  obtain ⟨r', hr', h'⟩ := C18_multisegment_in_contour hc na' vb'.ne_nil va' vb'.valid
  have k := C51_multisegment_in_contour hc na va vb
  have k' := C51_multisegment_in_contour hc na' va' vb'
  have x : (∃ p, CrossesAt (f.apply '' segsPts a.segments) (f.apply '' b.pts) p) ↔
      ∃ p, CrossesAt (segsPts a.segments) b.pts p := by
    rw [(affine_surj hf).exists]
    simp only [affine_crossesAt hf]
  simp only [affine_multisegment, affine_contour_pts, affine_sharesPiece hf, x, ← Set.image_inter i,
    Set.image_nonempty] at k'
  simp only [← k.1, ← k.2, hr, hr'] at k'
  rw [affine_multisegment, affine_contour_pts, affine_setsRel hf] at h'
  obtain ⟨u, hu⟩ := List.exists_mem_of_ne_nil _ na
  obtain ⟨v, hv⟩ := vb.sharesPiece
  have pa : ∃ u : Segment K, u.Nondegenerate ∧ u.pts ⊆ segsPts a.segments :=
    ⟨u, va.1 u hu, fun x hx => ⟨u, hu, hx⟩⟩
  have l := SetsRel.cases_iff pa ⟨v, hv.1, hv.2.1⟩ h
  have l' := SetsRel.cases_iff pa ⟨v, hv.1, hv.2.1⟩ h'
  simp only [← l.1, ← l.2.1, ← l.2.2.1, ← l.2.2.2.1, ← l.2.2.2.2.1, ← l.2.2.2.2.2] at l'
  rw [hr, hr']
  cases r <;> first | exact h.elim | simp_all

omit hc in
theorem affine_contoursRel (a b : Contour K) (r : Relation) :
    ContoursRel (f.contour a) (f.contour b) r ↔ ContoursRel a b r := by
  have i := affine_inj hf
  cases r <;> simp only [ContoursRel, affine_contour_pts, affine_interior hf, affine_exterior hf,
    ← Set.image_inter i, Set.image_nonempty, Set.image_eq_empty, i.image_injective.eq_iff, ne_eq,
    affine_sharesPiece hf]

/-- C53: `contour_in_contour`, also where the answer is not the relation of the curves (C36). -/
theorem C53_contour_in_contour {a b : Contour K} (va : a.Simple) (vb : b.Simple) :
    planar.contourInContour (f.contour a) (f.contour b) context = planar.contourInContour a b context := by
  have i := affine_inj hf
  have va' := affine_simple hf va
  have vb' := affine_simple hf vb
  have v : ∀ (c : Contour K) p, f.apply p ∈ (f.contour c).vertices ↔ p ∈ c.vertices := fun c p =>
    List.mem_map_of_injective i
  have k := C36_cross_touch hc va vb
  have k' := C36_cross_touch hc va' vb'
  have x : (∃ p ∈ f.apply '' (a.pts ∩ b.pts), p ∉ (f.contour a).vertices ∧ p ∉ (f.contour b).vertices) ↔
      ∃ p ∈ a.pts ∩ b.pts, p ∉ a.vertices ∧ p ∉ b.vertices := by
    simp only [Set.exists_mem_image, v]
  have y : (∀ p ∈ f.apply '' (a.pts ∩ b.pts), p ∈ (f.contour a).vertices ∨ p ∈ (f.contour b).vertices) ↔
      ∀ p ∈ a.pts ∩ b.pts, p ∈ a.vertices ∨ p ∈ b.vertices := by
    simp only [Set.forall_mem_image, v]
  simp only [affine_contour_pts, affine_sharesPiece hf, ← Set.image_inter i, Set.image_nonempty] at k'
  rw [x, y, ← k.1, ← k.2] at k'
  obtain ⟨r, hr, h⟩ := C36_contour_in_contour_partial hc va vb
  obtain ⟨r', hr', h'⟩ := C36_contour_in_contour_partial hc va' vb'
  rw [hr, hr'] at k' ⊢
  by_cases e1 : r = .cross
  · subst e1; simpa using k'.1.mpr rfl
  by_cases e2 : r = .touch
  · subst e2; simpa using k'.2.mpr rfl
  have e3 : r' ≠ .touch := fun e => by subst e; simp at k'; exact e2 k'.2
  have h := h.resolve_right fun h => e2 h.1
  have h' := h'.resolve_right fun h => e3 h.1
  rw [affine_contoursRel hf] at h'
  rw [ContoursRel.unique va h h']

/-! ### Regions, polygons and collections of them -/

/-- C53: `region_in_region`. -/
theorem C53_region_in_region {a : Region K} {b : Region K}
    (va : Contour.Simple a) (vb : Contour.Simple b) :
    planar.regionInRegion (f.contour a) (f.contour b) context =
      planar.regionInRegion a b context := by
  obtain ⟨q, hq, -⟩ := C32_region_in_region hc va vb
  refine (eq_of_iff ⟨q, hq⟩ fun r => ?_).symm
  rw [C32_region_in_region_iff hc va vb,
    C32_region_in_region_iff hc (affine_simple hf va) (affine_simple hf vb)]
  simp only [affine_interior hf, affine_contour_pts, affine_exterior hf, compoundRel_image (affine_inj hf)]

/-- C53: `contour_in_region`. -/
theorem C53_contour_in_region {a : Contour K} {b : Region K}
    (va : a.Simple) (vb : Contour.Simple b) :
    planar.contourInRegion (f.contour a) (f.contour b) context =
      planar.contourInRegion a b context := by
  obtain ⟨q, hq, -⟩ := C33_contour_in_region hc va vb
  refine (eq_of_iff ⟨q, hq⟩ fun r => ?_).symm
  rw [C33_contour_in_region_iff hc va vb,
    C33_contour_in_region_iff hc (affine_simple hf va) (affine_simple hf vb)]
  simp only [affine_contour_pts, affine_interior hf, affine_exterior hf,
    linearCompoundRel_image (affine_inj hf)]

/-- C53: `multisegment_in_region`. -/
theorem C53_multisegment_in_region {a : Multisegment K} {b : Region K}
    (va : SegmentsValid a.segments) (vb : Contour.Simple b)
    (na : a.segments ≠ [])
    (hn : ¬ Contour.pts b ⊆ segsPts a.segments) :
    planar.multisegmentInRegion (f.multisegment a) (f.contour b) context =
      planar.multisegmentInRegion a b context := by
  obtain ⟨q, hq, -⟩ := C34_multisegment_in_region hc na va vb
  refine (eq_of_iff ⟨q, hq⟩ fun r => ?_).symm
  rw [C34_multisegment_in_region_iff hc na va vb hn,
    C34_multisegment_in_region_iff (a := f.multisegment a) hc
    (by simpa [Affine.multisegment] using na) (affine_segmentsValid hf va) (affine_simple hf vb)
    (by rw [affine_contour_pts, affine_multisegment, Set.image_subset_image_iff (affine_inj hf)]; exact hn)]
  simp only [affine_multisegment, affine_interior hf, affine_contour_pts, affine_exterior hf,
    linearCompoundRel_image (affine_inj hf)]

/-- C53: `segment_in_multiregion`. -/
theorem C53_segment_in_multiregion {a : Segment K} {b : Multiregion K}
    (va : a.Nondegenerate) (vb : Multiregion.Valid b)
    (neat : Neat (b.flatMap Contour.edgeList)) :
    planar.segmentInMultiregion (f.segment a) (f.multiregion b) context =
      planar.segmentInMultiregion a b context := by
  obtain ⟨q, hq, -⟩ := C37_segment_in_multiregion hc va vb
  refine (eq_of_iff ⟨q, hq⟩ fun r => ?_).symm
  rw [C37_segment_in_multiregion_iff hc va vb neat,
    C37_segment_in_multiregion_iff hc ((affine_nondegenerate hf _).mpr va) (affine_multiregion_valid hf vb)
    (by rw [affine_multiregion_edges]; exact (affine_neat hf _).mpr neat)]
  simp only [affine_segment_pts, affine_multiregion_interior hf, affine_multiregion_pts,
    affine_multiregion_exterior hf, linearCompoundRel_image (affine_inj hf)]

/-- C53: `multisegment_in_multiregion`. -/
theorem C53_multisegment_in_multiregion {a : Multisegment K} {b : Multiregion K}
    (va : SegmentsValid a.segments) (vb : Multiregion.Valid b)
    (na : a.segments ≠ [])
    (neat : Neat (b.flatMap Contour.edgeList))
    (hn : ∀ c ∈ b, ¬ Contour.pts c ⊆ segsPts a.segments) :
    planar.multisegmentInMultiregion (f.multisegment a) (f.multiregion b) context =
      planar.multisegmentInMultiregion a b context := by
  obtain ⟨q, hq, -⟩ := C37_multisegment_in_multiregion hc na va vb
  refine (eq_of_iff ⟨q, hq⟩ fun r => ?_).symm
  rw [C37_multisegment_in_multiregion_iff hc na va vb neat hn,
    C37_multisegment_in_multiregion_iff (a := f.multisegment a) hc
    (by simpa [Affine.multisegment] using na) (affine_segmentsValid hf va) (affine_multiregion_valid hf vb)
    (by rw [affine_multiregion_edges]; exact (affine_neat hf _).mpr neat) (by
      intro c hc'
      obtain ⟨d, hd, rfl⟩ := List.mem_map.mp hc'
      rw [affine_contour_pts, affine_multisegment, Set.image_subset_image_iff (affine_inj hf)]
      exact hn d hd)]
  simp only [affine_multisegment, affine_multiregion_interior hf, affine_multiregion_pts,
    affine_multiregion_exterior hf, linearCompoundRel_image (affine_inj hf)]

/-- C53: `contour_in_multiregion`. -/
theorem C53_contour_in_multiregion {a : Contour K} {b : Multiregion K}
    (va : a.Simple) (vb : Multiregion.Valid b)
    (neat : Neat (b.flatMap Contour.edgeList)) :
    planar.contourInMultiregion (f.contour a) (f.multiregion b) context =
      planar.contourInMultiregion a b context := by
  obtain ⟨q, hq, -⟩ := C37_contour_in_multiregion hc va vb
  refine (eq_of_iff ⟨q, hq⟩ fun r => ?_).symm
  rw [C37_contour_in_multiregion_iff hc va vb neat,
    C37_contour_in_multiregion_iff hc (affine_simple hf va) (affine_multiregion_valid hf vb)
    (by rw [affine_multiregion_edges]; exact (affine_neat hf _).mpr neat)]
  simp only [affine_contour_pts, affine_multiregion_interior hf, affine_multiregion_pts,
    affine_multiregion_exterior hf, linearCompoundRel_image (affine_inj hf)]

/-- C53: `region_in_multiregion`. -/
theorem C53_region_in_multiregion {a : Region K} {b : Multiregion K}
    (va : Contour.Simple a) (vb : Multiregion.Valid b)
    (nb : b ≠ []) :
    planar.regionInMultiregion (f.contour a) (f.multiregion b) context =
      planar.regionInMultiregion a b context := by
  obtain ⟨q, hq, -⟩ := C38_region_in_multiregion hc va vb
  refine (eq_of_iff ⟨q, hq⟩ fun r => ?_).symm
  rw [C38_region_in_multiregion_iff hc va vb nb,
    C38_region_in_multiregion_iff hc (affine_simple hf va) (affine_multiregion_valid hf vb)
    (by simpa [Affine.multiregion] using nb)]
  simp only [affine_interior hf, affine_contour_pts, affine_exterior hf, affine_multiregion_interior hf,
    affine_multiregion_pts, affine_multiregion_exterior hf, compoundRel_image (affine_inj hf)]

/-- C53: `multiregion_in_multiregion`. -/
theorem C53_multiregion_in_multiregion {a : Multiregion K} {b : Multiregion K}
    (va : Multiregion.Valid a) (vb : Multiregion.Valid b)
    (na : a ≠ [])
    (nb : b ≠ []) :
    planar.multiregionInMultiregion (f.multiregion a) (f.multiregion b) context =
      planar.multiregionInMultiregion a b context := by
  obtain ⟨q, hq, -⟩ := C38_multiregion_in_multiregion hc va vb na nb
  refine (eq_of_iff ⟨q, hq⟩ fun r => ?_).symm
  rw [C38_multiregion_in_multiregion_iff hc va vb na nb,
    C38_multiregion_in_multiregion_iff hc (affine_multiregion_valid hf va) (affine_multiregion_valid hf vb)
    (by simpa [Affine.multiregion] using na)
    (by simpa [Affine.multiregion] using nb)]
  simp only [affine_multiregion_interior hf, affine_multiregion_pts, affine_multiregion_exterior hf,
    compoundRel_image (affine_inj hf)]

/-- C53: `multisegment_in_polygon`. -/
theorem C53_multisegment_in_polygon {a : Multisegment K} {b : Polygon K}
    (va : SegmentsValid a.segments) (vb : b.Valid)
    (na : a.segments ≠ [])
    (neat : Neat b.edges)
    (hn : ¬ b.pts ⊆ segsPts a.segments) :
    planar.multisegmentInPolygon (f.multisegment a) (f.polygon b) context =
      planar.multisegmentInPolygon a b context := by
  obtain ⟨q, hq, -⟩ := C39_multisegment_in_polygon hc na va vb
  refine (eq_of_iff ⟨q, hq⟩ fun r => ?_).symm
  rw [C39_multisegment_in_polygon_iff hc na va vb neat hn,
    C39_multisegment_in_polygon_iff (a := f.multisegment a) hc
    (by simpa [Affine.multisegment] using na) (affine_segmentsValid hf va) (affine_polygon_valid hf vb)
    (by rw [affine_polygon_edges]; exact (affine_neat hf _).mpr neat)
    (by rw [affine_polygon_pts, affine_multisegment, Set.image_subset_image_iff (affine_inj hf)]; exact hn)]
  simp only [affine_multisegment, affine_polygon_interior hf, affine_polygon_pts,
    affine_polygon_exterior hf, linearCompoundRel_image (affine_inj hf)]

/-- C53: `contour_in_polygon`. -/
theorem C53_contour_in_polygon {a : Contour K} {b : Polygon K}
    (va : a.Simple) (vb : b.Valid)
    (conn : b.Connected)
    (neat : Neat (b.holes.flatMap Contour.edgeList)) :
    planar.contourInPolygon (f.contour a) (f.polygon b) context =
      planar.contourInPolygon a b context := by
  obtain ⟨q, hq, -⟩ := C26_contour_in_polygon hc va vb
  refine (eq_of_iff ⟨q, hq⟩ fun r => ?_).symm
  rw [C26_contour_in_polygon_iff hc va vb conn neat,
    C26_contour_in_polygon_iff hc (affine_simple hf va) (affine_polygon_valid hf vb) (affine_connected hf conn)
    (by simp only [Affine.polygon]; rw [affine_multiregion_edges]; exact (affine_neat hf _).mpr neat)]
  simp only [affine_contour_pts, affine_polygon_interior hf, affine_polygon_pts, affine_polygon_exterior hf,
    linearCompoundRel_image (affine_inj hf)]

/-- C53: `region_in_polygon`. -/
theorem C53_region_in_polygon {a : Region K} {b : Polygon K}
    (va : Contour.Simple a) (vb : b.Valid)
    (conn : b.Connected) :
    planar.regionInPolygon (f.contour a) (f.polygon b) context =
      planar.regionInPolygon a b context := by
  obtain ⟨q, hq, -⟩ := C26_region_in_polygon hc va vb
  refine (eq_of_iff ⟨q, hq⟩ fun r => ?_).symm
  rw [C26_region_in_polygon_iff hc va vb conn,
    C26_region_in_polygon_iff hc (affine_simple hf va) (affine_polygon_valid hf vb) (affine_connected hf conn)]
  simp only [affine_interior hf, affine_contour_pts, affine_exterior hf, affine_polygon_interior hf,
    affine_polygon_pts, affine_polygon_exterior hf, compoundRel_image (affine_inj hf)]

/-- C53: `multiregion_in_polygon`. -/
theorem C53_multiregion_in_polygon {a : Multiregion K} {b : Polygon K}
    (va : Multiregion.Valid a) (vb : b.Valid)
    (na : a ≠ [])
    (conn : b.Connected) :
    planar.multiregionInPolygon (f.multiregion a) (f.polygon b) context =
      planar.multiregionInPolygon a b context := by
  obtain ⟨q, hq, -⟩ := C26_multiregion_in_polygon hc va vb (.inr conn)
  refine (eq_of_iff ⟨q, hq⟩ fun r => ?_).symm
  rw [C26_multiregion_in_polygon_iff hc va na vb (.inr conn),
    C26_multiregion_in_polygon_iff hc (affine_multiregion_valid hf va)
    (by simpa [Affine.multiregion] using na) (affine_polygon_valid hf vb) (.inr (affine_connected hf conn))]
  simp only [affine_multiregion_interior hf, affine_multiregion_pts, affine_multiregion_exterior hf,
    affine_polygon_interior hf, affine_polygon_pts, affine_polygon_exterior hf,
    compoundRel_image (affine_inj hf)]

/-- C53: `segment_in_multipolygon`. -/
theorem C53_segment_in_multipolygon {a : Segment K} {b : Multipolygon K}
    (va : a.Nondegenerate) (vb : b.Valid)
    (neat : Neat (b.polygons.flatMap Polygon.edges)) :
    planar.segmentInMultipolygon (f.segment a) (f.multipolygon b) context =
      planar.segmentInMultipolygon a b context := by
  obtain ⟨q, hq, -⟩ := C40_segment_in_multipolygon hc va vb
  refine (eq_of_iff ⟨q, hq⟩ fun r => ?_).symm
  rw [C40_segment_in_multipolygon_iff hc va vb neat,
    C40_segment_in_multipolygon_iff hc ((affine_nondegenerate hf _).mpr va) (affine_multipolygon_valid hf vb)
    (by rw [affine_multipolygon_edges]; exact (affine_neat hf _).mpr neat)]
  simp only [affine_segment_pts, affine_multipolygon_interior hf, affine_multipolygon_pts,
    affine_multipolygon_exterior hf, linearCompoundRel_image (affine_inj hf)]

/-- C53: `multisegment_in_multipolygon`. -/
theorem C53_multisegment_in_multipolygon {a : Multisegment K} {b : Multipolygon K}
    (va : SegmentsValid a.segments) (vb : b.Valid)
    (na : a.segments ≠ [])
    (neat : Neat (b.polygons.flatMap Polygon.edges))
    (hn : ∀ g ∈ b.polygons, ¬ Polygon.pts g ⊆ segsPts a.segments) :
    planar.multisegmentInMultipolygon (f.multisegment a) (f.multipolygon b) context =
      planar.multisegmentInMultipolygon a b context := by
  obtain ⟨q, hq, -⟩ := C40_multisegment_in_multipolygon hc na va vb
  refine (eq_of_iff ⟨q, hq⟩ fun r => ?_).symm
  rw [C40_multisegment_in_multipolygon_iff hc na va vb neat hn,
    C40_multisegment_in_multipolygon_iff (a := f.multisegment a) hc
    (by simpa [Affine.multisegment] using na) (affine_segmentsValid hf va) (affine_multipolygon_valid hf vb)
    (by rw [affine_multipolygon_edges]; exact (affine_neat hf _).mpr neat) (by
      intro c hc'
      obtain ⟨d, hd, rfl⟩ := List.mem_map.mp hc'
      rw [affine_polygon_pts, affine_multisegment, Set.image_subset_image_iff (affine_inj hf)]
      exact hn d hd)]
  simp only [affine_multisegment, affine_multipolygon_interior hf, affine_multipolygon_pts,
    affine_multipolygon_exterior hf, linearCompoundRel_image (affine_inj hf)]

/-- C53: `contour_in_multipolygon`. -/
theorem C53_contour_in_multipolygon {a : Contour K} {b : Multipolygon K}
    (va : a.Simple) (vb : b.Valid)
    (neat : Neat (b.polygons.flatMap Polygon.edges)) :
    planar.contourInMultipolygon (f.contour a) (f.multipolygon b) context =
      planar.contourInMultipolygon a b context := by
  obtain ⟨q, hq, -⟩ := C40_contour_in_multipolygon hc va vb
  refine (eq_of_iff ⟨q, hq⟩ fun r => ?_).symm
  rw [C40_contour_in_multipolygon_iff hc va vb neat,
    C40_contour_in_multipolygon_iff hc (affine_simple hf va) (affine_multipolygon_valid hf vb)
    (by rw [affine_multipolygon_edges]; exact (affine_neat hf _).mpr neat)]
  simp only [affine_contour_pts, affine_multipolygon_interior hf, affine_multipolygon_pts,
    affine_multipolygon_exterior hf, linearCompoundRel_image (affine_inj hf)]

/-- C53: `region_in_multipolygon`. -/
theorem C53_region_in_multipolygon {a : Region K} {b : Multipolygon K}
    (va : Contour.Simple a) (vb : b.Valid)
    (nb : b.polygons ≠ []) :
    planar.regionInMultipolygon (f.contour a) (f.multipolygon b) context =
      planar.regionInMultipolygon a b context := by
  obtain ⟨q, hq, -⟩ := C41_region_in_multipolygon hc va vb
  refine (eq_of_iff ⟨q, hq⟩ fun r => ?_).symm
  rw [C41_region_in_multipolygon_iff hc va vb nb,
    C41_region_in_multipolygon_iff hc (affine_simple hf va) (affine_multipolygon_valid hf vb)
    (by simpa [Affine.multipolygon] using nb)]
  simp only [affine_interior hf, affine_contour_pts, affine_exterior hf, affine_multipolygon_interior hf,
    affine_multipolygon_pts, affine_multipolygon_exterior hf, compoundRel_image (affine_inj hf)]

/-- C53: `multiregion_in_multipolygon`. -/
theorem C53_multiregion_in_multipolygon {a : Multiregion K} {b : Multipolygon K}
    (va : Multiregion.Valid a) (vb : b.Valid)
    (na : a ≠ [])
    (nb : b.polygons ≠ [])
    (neat : Neat (a.flatMap Contour.edgeList) ∨ Neat (b.polygons.flatMap Polygon.edges)) :
    planar.multiregionInMultipolygon (f.multiregion a) (f.multipolygon b) context =
      planar.multiregionInMultipolygon a b context := by
  obtain ⟨q, hq, -⟩ := C41_multiregion_in_multipolygon hc va vb na nb
  refine (eq_of_iff ⟨q, hq⟩ fun r => ?_).symm
  rw [C41_multiregion_in_multipolygon_iff hc va vb na nb neat,
    C41_multiregion_in_multipolygon_iff hc (affine_multiregion_valid hf va) (affine_multipolygon_valid hf vb)
    (by simpa [Affine.multiregion] using na)
    (by simpa [Affine.multipolygon] using nb) (neat.imp (fun h =>
    (by rw [affine_multiregion_edges]; exact (affine_neat hf _).mpr h))
      fun h =>
    (by rw [affine_multipolygon_edges]; exact (affine_neat hf _).mpr h))]
  simp only [affine_multiregion_interior hf, affine_multiregion_pts, affine_multiregion_exterior hf,
    affine_multipolygon_interior hf, affine_multipolygon_pts, affine_multipolygon_exterior hf,
    compoundRel_image (affine_inj hf)]

/-- C53: `polygon_in_multipolygon`. -/
theorem C53_polygon_in_multipolygon {a : Polygon K} {b : Multipolygon K}
    (va : a.Valid) (vb : b.Valid)
    (nb : b.polygons ≠ [])
    (neat : Neat a.edges ∨ Neat (b.polygons.flatMap Polygon.edges)) :
    planar.polygonInMultipolygon (f.polygon a) (f.multipolygon b) context =
      planar.polygonInMultipolygon a b context := by
  obtain ⟨q, hq, -⟩ := C41_polygon_in_multipolygon hc va vb
  refine (eq_of_iff ⟨q, hq⟩ fun r => ?_).symm
  rw [C41_polygon_in_multipolygon_iff hc va vb nb neat,
    C41_polygon_in_multipolygon_iff hc (affine_polygon_valid hf va) (affine_multipolygon_valid hf vb)
    (by simpa [Affine.multipolygon] using nb) (neat.imp (fun h =>
    (by rw [affine_polygon_edges]; exact (affine_neat hf _).mpr h))
      fun h =>
    (by rw [affine_multipolygon_edges]; exact (affine_neat hf _).mpr h))]
  simp only [affine_polygon_interior hf, affine_polygon_pts, affine_polygon_exterior hf,
    affine_multipolygon_interior hf, affine_multipolygon_pts, affine_multipolygon_exterior hf,
    compoundRel_image (affine_inj hf)]

/-- C53: `multipolygon_in_multipolygon`. -/
theorem C53_multipolygon_in_multipolygon {a : Multipolygon K} {b : Multipolygon K}
    (va : a.Valid) (vb : b.Valid)
    (na : a.polygons ≠ [])
    (nb : b.polygons ≠ [])
    (neat : Neat (a.polygons.flatMap Polygon.edges) ∨ Neat (b.polygons.flatMap Polygon.edges)) :
    planar.multipolygonInMultipolygon (f.multipolygon a) (f.multipolygon b) context =
      planar.multipolygonInMultipolygon a b context := by
  obtain ⟨q, hq, -⟩ := C41_multipolygon_in_multipolygon hc va vb na nb
  refine (eq_of_iff ⟨q, hq⟩ fun r => ?_).symm
  rw [C41_multipolygon_in_multipolygon_iff hc va vb na nb neat,
    C41_multipolygon_in_multipolygon_iff hc (affine_multipolygon_valid hf va) (affine_multipolygon_valid hf vb)
    (by simpa [Affine.multipolygon] using na)
    (by simpa [Affine.multipolygon] using nb) (neat.imp (fun h =>
    (by rw [affine_multipolygon_edges]; exact (affine_neat hf _).mpr h))
      fun h =>
    (by rw [affine_multipolygon_edges]; exact (affine_neat hf _).mpr h))]
  simp only [affine_multipolygon_interior hf, affine_multipolygon_pts, affine_multipolygon_exterior hf,
    compoundRel_image (affine_inj hf)]

omit hc in
theorem affine_regionRel (a b : Contour K) (r : Relation) :
    RegionRel (f.contour a) (f.contour b) r ↔ RegionRel a b r := by
  unfold RegionRel
  rw [affine_interior hf, affine_contour_pts, affine_exterior hf, affine_interior hf, affine_contour_pts,
    affine_exterior hf, compoundRel_image (affine_inj hf)]

/-- C53: `polygon_in_polygon` under the conditions of C49. -/
theorem C53_polygon_in_polygon {a b : Polygon K} (va : a.Valid) (vb : b.Valid) (ca : a.Connected)
    (cb : b.Connected) (h1 : ∀ d ∈ b.holes, ¬ RegionRel d a.border .touch)
    (h2 : ∀ d ∈ a.holes, ¬ RegionRel d b.border .touch) :
    planar.polygonInPolygon (f.polygon a) (f.polygon b) context = planar.polygonInPolygon a b context := by
  have key : ∀ {a b : Polygon K}, (∀ d ∈ b.holes, ¬ RegionRel d a.border .touch) →
      ∀ d ∈ (f.polygon b).holes, ¬ RegionRel d (f.polygon a).border .touch := by
    intro a b h d hd
    obtain ⟨e, he, rfl⟩ := List.mem_map.mp hd
    exact fun k => h e he ((affine_regionRel hf _ _ _).mp k)
  obtain ⟨q, hq, -⟩ := C25_polygon_in_polygon hc va vb ca cb
  refine (eq_of_iff ⟨q, hq⟩ fun r => ?_).symm
  rw [C25_polygon_in_polygon_iff hc va vb ca cb h1 h2,
    C25_polygon_in_polygon_iff hc (affine_polygon_valid hf va) (affine_polygon_valid hf vb)
      (affine_connected hf ca) (affine_connected hf cb) (key h1) (key h2)]
  unfold PolygonRel
  rw [affine_polygon_interior hf, affine_polygon_pts, affine_polygon_exterior hf, affine_polygon_interior hf,
    affine_polygon_pts, affine_polygon_exterior hf, compoundRel_image (affine_inj hf)]

/-- C53: `segment_in_polygon` under the conditions of `C26_segment_beside_border`. -/
theorem C53_segment_in_polygon {a : Segment K} {b : Polygon K} (va : a.Nondegenerate) (vb : b.Valid)
    (hno : ¬ SharesPiece a.pts b.border.pts)
    (hside : (Counterclockwise b.border ∧ Counterclockwise (f.contour b.border)) ∨ a.start ∉ b.border.pts ∨
      a.finish ∉ b.border.pts ∨ (a.start ∉ b.border.vertices ∧ a.finish ∉ b.border.vertices))
    (neat : Neat (b.holes.flatMap Contour.edgeList)) (hoff : b.border.pts ∩ Multiregion.pts b.holes = ∅) :
    planar.segmentInPolygon (f.segment a) (f.polygon b) context = planar.segmentInPolygon a b context := by
  have i := affine_inj hf
  have va' := (affine_nondegenerate hf a).mpr va
  have k : ∀ p, f.apply p ∈ (f.contour b.border).pts ↔ p ∈ b.border.pts := fun p => by
    rw [affine_contour_pts, i.mem_set_image]
  have v : ∀ p, f.apply p ∈ (f.contour b.border).vertices ↔ p ∈ b.border.vertices := fun p =>
    List.mem_map_of_injective i
  obtain ⟨r, hr, h⟩ := C26_segment_beside_border hc va vb hno (hside.imp_left And.left) neat hoff
  obtain ⟨r', hr', h'⟩ := C26_segment_beside_border hc va' (affine_polygon_valid hf vb)
    (by
      rw [affine_segment_pts, show (f.polygon b).border = f.contour b.border from rfl, affine_contour_pts,
        affine_sharesPiece hf]
      exact hno)
    (by
      simp only [Affine.segment, Affine.polygon, k, v]
      exact hside.imp_left And.right)
    (by
      rw [show (f.polygon b).holes = f.multiregion b.holes from rfl, affine_multiregion_edges]
      exact (affine_neat hf _).mpr neat)
    (by
      rw [show (f.polygon b).holes = f.multiregion b.holes from rfl,
        show (f.polygon b).border = f.contour b.border from rfl, affine_contour_pts, affine_multiregion_pts,
        ← Set.image_inter i, hoff, Set.image_empty])
  rw [affine_segment_pts, affine_polygon_interior hf, affine_polygon_pts, affine_polygon_exterior hf,
    linearCompoundRel_image i] at h'
  rw [hr, hr']
  obtain ⟨s1, s2, s3⟩ := polygon_apart vb
  rw [LinearCompoundRel.unique ⟨_, a.start_mem⟩ s1 s2 s3 h h']

end

end Orient.Props
