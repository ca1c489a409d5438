import Verif.Props.MovedRelations
import Verif.Props.ExactPairs
import Verif.Props.ExactAnswers
import Verif.Props.ExactPolygons

/-! C78: affine bijections do not change answers, for all valid operands.

The conditions of C53 are not needed where the exact answers (C73, C74, C76) are known: what decides about wrong
answers is kept by affine bijections, too.  The bounding boxes are not, so `multisegment_in_multiregion` and
`multisegment_in_multipolygon` are unchanged only by maps which keep the axes. -/

set_option linter.unusedSectionVars false

namespace Orient.Props

variable {K : Type} [Field K] [LinearOrder K] [IsStrictOrderedRing K]

/-- Two calls with equivalent exact answers. -/
theorem answers_eq {x y : Py Relation} {P Q : Relation → Prop} (hx : ∃ r, x = .ok r ∧ ∀ q, P q ↔ q = r)
    (hy : ∃ r, y = .ok r ∧ ∀ q, Q q ↔ q = r) (h : ∀ q, P q ↔ Q q) : x = y := by
  obtain ⟨r, rfl, hr⟩ := hx
  obtain ⟨s, rfl, hs⟩ := hy
  exact congrArg _ ((hs r).mp ((h r).mp ((hr r).mpr rfl)))

section

variable {f : Affine K} (hf : f.det ≠ 0)

include hf

theorem affine_leavesAt (u : Segment K) (p : Point K) (S : Set (Point K)) :
    (f.segment u).LeavesAt (f.apply p) (f.apply '' S) ↔ u.LeavesAt p S := by
  have i := affine_inj hf
  unfold Segment.LeavesAt
  rw [(affine_surj hf).exists]
  refine exists_congr fun a => ?_
  rw [affine_segment_pts, affine_piece hf,
    show (⟨f.apply p, f.apply a⟩ : Segment K) = f.segment ⟨p, a⟩ from rfl, affine_segment_pts]
  simp only [Set.forall_mem_image, i.mem_set_image, i.eq_iff, ne_eq]

theorem affine_edgesCross (G T : List (Segment K)) :
    EdgesCross (G.map f.segment) (T.map f.segment) ↔ EdgesCross G T := by
  unfold EdgesCross
  simp only [List.mem_map, exists_exists_and_eq_and, affine_segment_pts, affine_segsPts,
    ← Set.image_inter (affine_inj hf), Set.exists_mem_image, affine_isEndpoint hf, affine_leavesAt hf]

theorem affine_entangled (t g : Polygon K) : (f.polygon t).Entangled (f.polygon g) ↔ t.Entangled g := by
  have i := affine_inj hf
  simp only [Polygon.Entangled, Affine.polygon, Affine.multiregion, affine_interior hf, List.mem_map,
    forall_exists_index, and_imp, forall_apply_eq_imp_iff₂, ← Set.image_inter i, Set.image_nonempty,
    Set.image_subset_image_iff i]

theorem affine_looksWithin (t g : Polygon K) : (f.polygon t).LooksWithin (f.polygon g) ↔ t.LooksWithin g := by
  have i := affine_inj hf
  have e : Multiregion.interior (f.polygon t).holes = f.apply '' Multiregion.interior t.holes :=
    affine_multiregion_interior hf t.holes
  unfold Polygon.LooksWithin
  rw [e]
  simp only [Affine.polygon, Affine.multiregion, affine_interior hf, List.mem_map, affine_contour_pts,
    forall_exists_index, and_imp, forall_apply_eq_imp_iff₂, exists_exists_and_eq_and, ← Set.image_union,
    Set.image_subset_image_iff i]

omit hf in
theorem mul_lt_cases {z : K} (hz : z ≠ 0) :
    (∀ a b, z * a < z * b ↔ a < b) ∨ ∀ a b, z * a < z * b ↔ b < a := by
  rcases lt_or_gt_of_ne hz with h | h
  · exact .inr fun a b => mul_lt_mul_left_of_neg h
  · exact .inl fun a b => mul_lt_mul_iff_of_pos_left h

/-- A map which keeps the axes or exchanges them. -/
theorem affine_boxesApart (h : f.xy = 0 ∧ f.yx = 0 ∨ f.xx = 0 ∧ f.yy = 0) (A B : Set (Point K)) :
    BoxesApart (f.apply '' A) (f.apply '' B) ↔ BoxesApart A B := by
  unfold BoxesApart
  simp only [Set.forall_mem_image, Affine.apply]
  rcases h with ⟨h1, h2⟩ | ⟨h1, h2⟩
  · have hx : f.xx ≠ 0 := fun h => hf (by simp [Affine.det, h, h1])
    have hy : f.yy ≠ 0 := fun h => hf (by simp [Affine.det, h, h1])
    simp only [h1, h2, zero_mul, add_zero, zero_add, add_lt_add_iff_right]
    rcases mul_lt_cases hx with hx | hx <;> rcases mul_lt_cases hy with hy | hy <;> simp only [hx, hy] <;> tauto
  · have hx : f.xy ≠ 0 := fun h => hf (by simp [Affine.det, h, h1])
    have hy : f.yx ≠ 0 := fun h => hf (by simp [Affine.det, h, h1])
    simp only [h1, h2, zero_mul, add_zero, zero_add, add_lt_add_iff_right]
    rcases mul_lt_cases hx with hx | hx <;> rcases mul_lt_cases hy with hy | hy <;> simp only [hx, hy] <;> tauto

variable {context : Context K} (hc : context.Exact)

include hc

/-! ### Linear geometries -/

/-- C78: `multisegment_in_region`. -/
theorem C78_multisegment_in_region {a : Multisegment K} {b : Region K} (na : a.segments ≠ [])
    (va : SegmentsValid a.segments) (vb : Contour.Simple b) :
    planar.multisegmentInRegion (f.multisegment a) (f.contour b) context =
      planar.multisegmentInRegion a b context := by
  have i := affine_inj hf
  refine answers_eq (C73_multisegment_in_region hc (by simpa [Affine.multisegment] using na)
    (affine_segmentsValid hf va) (affine_simple hf vb)) (C73_multisegment_in_region hc na va vb) fun q => ?_
  simp only [LinearAnswer, affine_edges, Affine.multisegment, affine_edgesCross hf, affine_segsPts,
    affine_contour_pts, affine_interior hf, affine_exterior hf, Set.image_subset_image_iff i,
    ← Set.image_inter i, Set.image_nonempty, linearCompoundRel_image i]

/-- C78: `multisegment_in_polygon`. -/
theorem C78_multisegment_in_polygon {a : Multisegment K} {b : Polygon K} (na : a.segments ≠ [])
    (va : SegmentsValid a.segments) (vb : b.Valid) :
    planar.multisegmentInPolygon (f.multisegment a) (f.polygon b) context =
      planar.multisegmentInPolygon a b context := by
  have i := affine_inj hf
  refine answers_eq (C73_multisegment_in_polygon hc (by simpa [Affine.multisegment] using na)
    (affine_segmentsValid hf va) (affine_polygon_valid hf vb)) (C73_multisegment_in_polygon hc na va vb) fun q => ?_
  simp only [LinearAnswer, affine_polygon_edges, Affine.multisegment, affine_edgesCross hf, affine_segsPts,
    affine_polygon_pts, affine_polygon_interior hf, affine_polygon_exterior hf, Set.image_subset_image_iff i,
    ← Set.image_inter i, Set.image_nonempty, linearCompoundRel_image i]

/-- C78: `segment_in_multiregion`. -/
theorem C78_segment_in_multiregion {a : Segment K} {b : Multiregion K} (va : a.Nondegenerate)
    (vb : Multiregion.Valid b) :
    planar.segmentInMultiregion (f.segment a) (f.multiregion b) context =
      planar.segmentInMultiregion a b context := by
  refine answers_eq (C73_segment_in_multiregion hc ((affine_nondegenerate hf a).mpr va)
    (affine_multiregion_valid hf vb)) (C73_segment_in_multiregion hc va vb) fun q => ?_
  have e := affine_edgesCross hf (b.flatMap Contour.edgeList) [a]
  rw [List.map_singleton] at e
  simp only [CrossAnswer, affine_multiregion_edges, e, affine_segment_pts, affine_multiregion_pts,
    affine_multiregion_interior hf, affine_multiregion_exterior hf, linearCompoundRel_image (affine_inj hf)]

/-- C78: `contour_in_multiregion`. -/
theorem C78_contour_in_multiregion {a : Contour K} {b : Multiregion K} (va : a.Simple)
    (vb : Multiregion.Valid b) :
    planar.contourInMultiregion (f.contour a) (f.multiregion b) context =
      planar.contourInMultiregion a b context := by
  refine answers_eq (C73_contour_in_multiregion hc (affine_simple hf va)
    (affine_multiregion_valid hf vb)) (C73_contour_in_multiregion hc va vb) fun q => ?_
  simp only [CrossAnswer, affine_multiregion_edges, affine_edges, affine_edgesCross hf, affine_contour_pts,
    affine_multiregion_pts, affine_multiregion_interior hf, affine_multiregion_exterior hf,
    linearCompoundRel_image (affine_inj hf)]

/-- C78: `segment_in_multipolygon`. -/
theorem C78_segment_in_multipolygon {a : Segment K} {b : Multipolygon K} (va : a.Nondegenerate) (vb : b.Valid) :
    planar.segmentInMultipolygon (f.segment a) (f.multipolygon b) context =
      planar.segmentInMultipolygon a b context := by
  refine answers_eq (C73_segment_in_multipolygon hc ((affine_nondegenerate hf a).mpr va)
    (affine_multipolygon_valid hf vb)) (C73_segment_in_multipolygon hc va vb) fun q => ?_
  have e := affine_edgesCross hf (b.polygons.flatMap Polygon.edges) [a]
  rw [List.map_singleton] at e
  simp only [CrossAnswer, affine_multipolygon_edges, e, affine_segment_pts, affine_multipolygon_pts,
    affine_multipolygon_interior hf, affine_multipolygon_exterior hf, linearCompoundRel_image (affine_inj hf)]

/-- C78: `contour_in_multipolygon`. -/
theorem C78_contour_in_multipolygon {a : Contour K} {b : Multipolygon K} (va : a.Simple) (vb : b.Valid) :
    planar.contourInMultipolygon (f.contour a) (f.multipolygon b) context =
      planar.contourInMultipolygon a b context := by
  refine answers_eq (C73_contour_in_multipolygon hc (affine_simple hf va)
    (affine_multipolygon_valid hf vb)) (C73_contour_in_multipolygon hc va vb) fun q => ?_
  simp only [CrossAnswer, affine_multipolygon_edges, affine_edges, affine_edgesCross hf, affine_contour_pts,
    affine_multipolygon_pts, affine_multipolygon_interior hf, affine_multipolygon_exterior hf,
    linearCompoundRel_image (affine_inj hf)]

/-- C78: `contour_in_polygon`. -/
theorem C78_contour_in_polygon {a : Contour K} {b : Polygon K} (va : a.Simple) (vb : b.Valid) :
    planar.contourInPolygon (f.contour a) (f.polygon b) context = planar.contourInPolygon a b context := by
  have i := affine_inj hf
  refine answers_eq (C74_contour_in_polygon hc (affine_simple hf va)
    (affine_polygon_valid hf vb)) (C74_contour_in_polygon hc va vb) fun q => ?_
  have h1 : (f.polygon b).border = f.contour b.border := rfl
  have h2 : (f.polygon b).holes = f.multiregion b.holes := rfl
  simp only [HoledAnswer, h1, h2, affine_multiregion_edges, affine_edges, affine_edgesCross hf,
    affine_contour_pts, affine_interior hf, affine_exterior hf, affine_multiregion_interior hf,
    affine_multiregion_exterior hf, affine_multiregion_pts, affine_polygon_pts, affine_polygon_interior hf,
    affine_polygon_exterior hf, ← Set.image_inter i, Set.image_nonempty, Set.image_subset_image_iff i,
    linearCompoundRel_image i]

/-- C78: `multisegment_in_multiregion`, for maps which keep or exchange the axes. -/
theorem C78_multisegment_in_multiregion (hx : f.xy = 0 ∧ f.yx = 0 ∨ f.xx = 0 ∧ f.yy = 0) {a : Multisegment K}
    {b : Multiregion K} (na : a.segments ≠ []) (va : SegmentsValid a.segments) (vb : Multiregion.Valid b) :
    planar.multisegmentInMultiregion (f.multisegment a) (f.multiregion b) context =
      planar.multisegmentInMultiregion a b context := by
  have i := affine_inj hf
  refine answers_eq (C73_multisegment_in_multiregion hc (by simpa [Affine.multisegment] using na)
    (affine_segmentsValid hf va) (affine_multiregion_valid hf vb))
    (C73_multisegment_in_multiregion hc na va vb) fun q => ?_
  have e : (∀ c ∈ f.multiregion b, ¬ BoxesApart (f.apply '' segsPts a.segments) (Contour.interior c ∪ Contour.pts c) →
      Contour.pts c ⊆ f.apply '' segsPts a.segments) ↔
      ∀ c ∈ b, ¬ BoxesApart (segsPts a.segments) (Contour.interior c ∪ Contour.pts c) →
        Contour.pts c ⊆ segsPts a.segments := by
    simp only [Affine.multiregion, List.mem_map, forall_exists_index, and_imp, forall_apply_eq_imp_iff₂,
      affine_interior hf, affine_contour_pts, ← Set.image_union, affine_boxesApart hf hx,
      Set.image_subset_image_iff i]
  simp only [LinearAnswer, affine_multiregion_edges, Affine.multisegment, affine_edgesCross hf, affine_segsPts,
    affine_multiregion_pts, affine_multiregion_interior hf, affine_multiregion_exterior hf, e,
    ← Set.image_inter i, Set.image_nonempty, linearCompoundRel_image i]

/-- C78: `multisegment_in_multipolygon`, for maps which keep or exchange the axes. -/
theorem C78_multisegment_in_multipolygon (hx : f.xy = 0 ∧ f.yx = 0 ∨ f.xx = 0 ∧ f.yy = 0) {a : Multisegment K}
    {b : Multipolygon K} (na : a.segments ≠ []) (va : SegmentsValid a.segments) (vb : b.Valid) :
    planar.multisegmentInMultipolygon (f.multisegment a) (f.multipolygon b) context =
      planar.multisegmentInMultipolygon a b context := by
  have i := affine_inj hf
  refine answers_eq (C73_multisegment_in_multipolygon hc (by simpa [Affine.multisegment] using na)
    (affine_segmentsValid hf va) (affine_multipolygon_valid hf vb))
    (C73_multisegment_in_multipolygon hc na va vb) fun q => ?_
  have e : (∀ g ∈ (f.multipolygon b).polygons,
      ¬ BoxesApart (f.apply '' segsPts a.segments) (Polygon.interior g ∪ Polygon.pts g) →
      Polygon.pts g ⊆ f.apply '' segsPts a.segments) ↔
      ∀ g ∈ b.polygons, ¬ BoxesApart (segsPts a.segments) (Polygon.interior g ∪ Polygon.pts g) →
        Polygon.pts g ⊆ segsPts a.segments := by
    simp only [Affine.multipolygon, List.mem_map, forall_exists_index, and_imp, forall_apply_eq_imp_iff₂,
      affine_polygon_interior hf, affine_polygon_pts, ← Set.image_union, affine_boxesApart hf hx,
      Set.image_subset_image_iff i]
  simp only [LinearAnswer, affine_multipolygon_edges, Affine.multisegment, affine_edgesCross hf, affine_segsPts,
    affine_multipolygon_pts, affine_multipolygon_interior hf, affine_multipolygon_exterior hf, e,
    ← Set.image_inter i, Set.image_nonempty, linearCompoundRel_image i]

/-! ### Areas -/

/-- C78: `polygon_in_multipolygon`. -/
theorem C78_polygon_in_multipolygon {a : Polygon K} {b : Multipolygon K} (va : a.Valid) (vb : b.Valid)
    (nb : b.polygons ≠ []) :
    planar.polygonInMultipolygon (f.polygon a) (f.multipolygon b) context =
      planar.polygonInMultipolygon a b context := by
  refine answers_eq (C73_polygon_in_multipolygon hc (affine_polygon_valid hf va)
    (affine_multipolygon_valid hf vb) (by simpa [Affine.multipolygon] using nb))
    (C73_polygon_in_multipolygon hc va vb nb) fun q => ?_
  simp only [CompoundAnswer, affine_multipolygon_edges, affine_polygon_edges, affine_edgesCross hf,
    affine_polygon_pts, affine_polygon_interior hf, affine_polygon_exterior hf, affine_multipolygon_pts,
    affine_multipolygon_interior hf, affine_multipolygon_exterior hf, compoundRel_image (affine_inj hf)]

/-- C78: `multiregion_in_multipolygon`. -/
theorem C78_multiregion_in_multipolygon {a : Multiregion K} {b : Multipolygon K} (va : Multiregion.Valid a)
    (vb : b.Valid) (na : a ≠ []) (nb : b.polygons ≠ []) :
    planar.multiregionInMultipolygon (f.multiregion a) (f.multipolygon b) context =
      planar.multiregionInMultipolygon a b context := by
  refine answers_eq (C73_multiregion_in_multipolygon hc (affine_multiregion_valid hf va)
    (affine_multipolygon_valid hf vb) (by simpa [Affine.multiregion] using na)
    (by simpa [Affine.multipolygon] using nb)) (C73_multiregion_in_multipolygon hc va vb na nb) fun q => ?_
  simp only [CompoundAnswer, affine_multipolygon_edges, affine_multiregion_edges, affine_edgesCross hf,
    affine_multiregion_pts, affine_multiregion_interior hf, affine_multiregion_exterior hf, affine_multipolygon_pts,
    affine_multipolygon_interior hf, affine_multipolygon_exterior hf, compoundRel_image (affine_inj hf)]

/-- C78: `multipolygon_in_multipolygon`. -/
theorem C78_multipolygon_in_multipolygon {a b : Multipolygon K} (va : a.Valid) (vb : b.Valid)
    (na : a.polygons ≠ []) (nb : b.polygons ≠ []) :
    planar.multipolygonInMultipolygon (f.multipolygon a) (f.multipolygon b) context =
      planar.multipolygonInMultipolygon a b context := by
  refine answers_eq (C73_multipolygon_in_multipolygon hc (affine_multipolygon_valid hf va)
    (affine_multipolygon_valid hf vb) (by simpa [Affine.multipolygon] using na)
    (by simpa [Affine.multipolygon] using nb)) (C73_multipolygon_in_multipolygon hc va vb na nb) fun q => ?_
  simp only [CompoundAnswer, affine_multipolygon_edges, affine_edgesCross hf, affine_multipolygon_pts,
    affine_multipolygon_interior hf, affine_multipolygon_exterior hf, compoundRel_image (affine_inj hf)]

/-- C78: `region_in_polygon`. -/
theorem C78_region_in_polygon {a : Region K} {b : Polygon K} (va : Contour.Simple a) (vb : b.Valid) :
    planar.regionInPolygon (f.contour a) (f.polygon b) context = planar.regionInPolygon a b context := by
  refine answers_eq (C74_region_in_polygon hc (affine_simple hf va)
    (affine_polygon_valid hf vb)) (C74_region_in_polygon hc va vb) fun q => ?_
  simp only [affine_contour_pts, affine_interior hf, affine_exterior hf, affine_polygon_pts,
    affine_polygon_interior hf, affine_polygon_exterior hf, compoundRel_image (affine_inj hf)]

/-- C78: `polygon_in_polygon`. -/
theorem C78_polygon_in_polygon {a b : Polygon K} (va : a.Valid) (vb : b.Valid) :
    planar.polygonInPolygon (f.polygon a) (f.polygon b) context = planar.polygonInPolygon a b context := by
  obtain ⟨r, hr, -⟩ := C72_polygon_relation va vb
  have hr' : PolygonRel (f.polygon a) (f.polygon b) r := by
    unfold PolygonRel at hr ⊢
    simpa only [affine_polygon_pts, affine_polygon_interior hf, affine_polygon_exterior hf,
      compoundRel_image (affine_inj hf)] using hr
  refine answers_eq (C76_polygon_in_polygon hc (affine_polygon_valid hf va) (affine_polygon_valid hf vb) hr')
    (C76_polygon_in_polygon hc va vb hr) fun q => ?_
  cases r <;> simp only [PolygonAnswer, affine_entangled hf, affine_looksWithin hf]

/-- C78: `multiregion_in_polygon`. -/
theorem C78_multiregion_in_polygon {a : Multiregion K} {b : Polygon K} (va : Multiregion.Valid a) (na : a ≠ [])
    (vb : b.Valid) :
    planar.multiregionInPolygon (f.multiregion a) (f.polygon b) context =
      planar.multiregionInPolygon a b context := by
  obtain ⟨r, hr, -⟩ := C72_multiregion_relation va na vb
  have hr' : MultiregionRel (f.multiregion a) (f.polygon b) r := by
    unfold MultiregionRel at hr ⊢
    simpa only [affine_polygon_pts, affine_polygon_interior hf, affine_polygon_exterior hf, affine_multiregion_pts,
      affine_multiregion_interior hf, affine_multiregion_exterior hf, compoundRel_image (affine_inj hf)] using hr
  obtain ⟨s, hs, h1, h2⟩ := C76_multiregion_in_polygon hc va na vb hr
  obtain ⟨s', hs', h1', h2'⟩ := C76_multiregion_in_polygon hc (affine_multiregion_valid hf va)
    (by simpa [Affine.multiregion] using na) (affine_polygon_valid hf vb) hr'
  have e : (f.polygon b).holes = [] ↔ b.holes = [] := by simp [Affine.polygon, Affine.multiregion]
  rw [hs, hs']
  by_cases hh : b.holes = []
  · rw [h1 hh, h1' (e.mpr hh)]
  · refine congrArg _ ((h2 hh s').mp ?_)
    have h := (h2' (fun k => hh (e.mp k)) s').mpr rfl
    have x : (∃ c ∈ f.multiregion a, (f.polygon b).border.interior ⊆ Contour.interior c) ↔
        ∃ c ∈ a, b.border.interior ⊆ Contour.interior c := by
      simp only [Affine.polygon, Affine.multiregion, affine_interior hf, List.mem_map, exists_exists_and_eq_and,
        Set.image_subset_image_iff (affine_inj hf)]
    cases r <;> simpa only [MultiregionAnswer, x] using h

end

/-! ### Examples -/

/-- The edges of a square with a segment in it and a segment outside of it. -/
def exampleFlag : Multisegment ℚ :=
  ⟨[⟨⟨0, 0⟩, ⟨2, 0⟩⟩, ⟨⟨2, 0⟩, ⟨2, 2⟩⟩, ⟨⟨2, 2⟩, ⟨0, 2⟩⟩, ⟨⟨0, 2⟩, ⟨0, 0⟩⟩, ⟨⟨0, 0⟩, ⟨1, 1⟩⟩, ⟨⟨2, 2⟩, ⟨3, 10⟩⟩]⟩

/-- The square and a triangle beside the bounding box of `exampleFlag`. -/
def exampleBeside : Multiregion ℚ := [⟨[⟨0, 0⟩, ⟨2, 0⟩, ⟨2, 2⟩, ⟨0, 2⟩]⟩, ⟨[⟨4, 0⟩, ⟨5, 0⟩, ⟨4, 1⟩]⟩]

/-- C78: a shear changes the answers of `multisegment_in_multiregion` and `multisegment_in_multipolygon`, as
it brings the triangle into the bounding box of the multisegment. -/
theorem C78_counterexample_shear :
    let f : Affine ℚ := ⟨1, 1, 0, 1, 0, 0⟩
    let b : Multipolygon ℚ := ⟨exampleBeside.map fun c => ⟨c, []⟩⟩
    f.det ≠ 0 ∧ SegmentsValid exampleFlag.segments ∧ Multiregion.Valid exampleBeside ∧ b.Valid ∧
      planar.multisegmentInMultiregion exampleFlag exampleBeside (reference.context : Context ℚ) = .ok .touch ∧
      planar.multisegmentInMultiregion (f.multisegment exampleFlag) (f.multiregion exampleBeside)
        (reference.context : Context ℚ) = .ok .cross ∧
      planar.multisegmentInMultipolygon exampleFlag b (reference.context : Context ℚ) = .ok .touch ∧
      planar.multisegmentInMultipolygon (f.multisegment exampleFlag) (f.multipolygon b)
        (reference.context : Context ℚ) = .ok .cross := by
  intro f b
  exact ⟨by decide +kernel, segmentsValid_of_check (by decide +kernel), Multiregion.valid_of_check (by decide +kernel),
    Multipolygon.valid_of_check (by decide +kernel), by decide +kernel, by decide +kernel, by decide +kernel,
    by decide +kernel⟩

/-- C78: a rotation by a quarter does not change the answers about them. -/
theorem C78_example_quarter :
    let f : Affine ℚ := ⟨0, -1, 1, 0, 0, 0⟩
    planar.multisegmentInMultiregion (f.multisegment exampleFlag) (f.multiregion exampleBeside)
      (reference.context : Context ℚ) = .ok .touch := by
  intro f
  obtain ⟨-, v1, v2, -, h, -⟩ := C78_counterexample_shear
  rw [C78_multisegment_in_multiregion (by decide +kernel) reference.context_exact (.inr ⟨rfl, rfl⟩)
    (by decide +kernel) v1 v2, h]

/-- C78: the entangled polygons of C72 are answered `OVERLAP` however they are moved, although they touch. -/
theorem C78_example_pinched (f : Affine ℚ) (hf : f.det ≠ 0) :
    planar.polygonInPolygon (f.polygon pinched) (f.polygon pinching) (reference.context : Context ℚ)
      = .ok .overlap := by
  rw [C78_polygon_in_polygon hf reference.context_exact pinched_valid.1 pinched_valid.2.1,
    C72_counterexample_touch.2.2.1]

end Orient.Props
