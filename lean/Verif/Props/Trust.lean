import Verif.Spec.Trust
import Verif.Props.Locations
import Verif.Props.ExactPairs
import Verif.Props.ExactPolygons
import Verif.Props.ExactSegments

/-! C82: what answers say for certain, without any conditions on valid operands. -/

set_option linter.unusedSectionVars false
set_option linter.unusedSimpArgs false

namespace Orient.Props

variable {K : Type} [Field K] [LinearOrder K] [IsStrictOrderedRing K]

/-- The function tells which points belong to a linear geometry. -/
def Drawn (l : Point K → Location) (S : Set (Point K)) : Prop := ∀ p, l p ≠ .exterior ↔ p ∈ S

section

variable {l l' : Point K → Location} {S I B E I' B' E' : Set (Point K)} {r : Relation}

theorem Located.drawn (h : Located l I B E) : Drawn l (I ∪ B) := by
  intro p
  have h1 := h.interior p
  have h2 := h.boundary p
  have h3 := h.exterior p
  rw [Set.mem_union, ← h1, ← h2]
  cases l p <;> simp

theorem Located.split (h : Located l I B E) : Split I B E := by
  have h1 := h.interior
  have h2 := h.boundary
  have h3 := h.exterior
  refine ⟨fun x => ?_, fun x => ?_, fun x => ?_, fun x => ?_⟩ <;>
    simp only [← h1, ← h2, ← h3] <;> cases l x <;> simp

theorem noCommon_iff (h : Drawn l S) (h' : Located l' I B E) : NoCommon l l' ↔ S ⊆ E := by
  refine forall_congr' fun p => ?_
  rw [h'.exterior, ← h p, or_iff_not_imp_left]

theorem insideOf_iff (h : Drawn l S) (h' : Located l' I B E) : InsideOf l l' ↔ S ⊆ I := by
  refine forall_congr' fun p => ?_
  rw [h'.interior, ← h p]

theorem partOf_iff (h : Drawn l S) {T : Set (Point K)} (h' : Drawn l' T) : PartOf l l' ↔ S ⊆ T := by
  refine forall_congr' fun p => ?_
  rw [h p, h' p]

theorem enters_iff (h : Drawn l S) (h' : Located l' I B E) : Enters l l' ↔ (S ∩ I).Nonempty := by
  refine exists_congr fun p => ?_
  rw [h p, h'.interior, Set.mem_inter_iff]

theorem intermix_iff (h : Located l I B E) (h' : Located l' I' B' E') :
    Intermix l l' ↔ (I ∩ I').Nonempty := by
  refine exists_congr fun p => ?_
  rw [h.interior, h'.interior, Set.mem_inter_iff]

/-- Right answers and those which are wrong in a harmless way. -/
theorem linearTrust (h : Drawn l S) (h' : Located l' I B E) (ns : S.Nonempty)
    (hr : LinearCompoundRel S I B E r ∨ (¬ S ⊆ E ∧ ¬ S ⊆ I ∧ (r = .cross ∨ r = .touch ∨ (r = .enclosed ∧ S ⊆ B)))) :
    LinearTrust l l' r := by
  have s := h'.split
  obtain ⟨s1, s2, s3, s4⟩ := s
  obtain ⟨x, hx⟩ := ns
  have d := noCommon_iff h h'
  have w := insideOf_iff h h'
  have p := partOf_iff h h'.drawn
  refine ⟨(propext d) ▸ ?_, (propext w) ▸ ?_, (propext p) ▸ ?_⟩ <;> clear d w p h h' <;>
    cases r <;> simp only [LinearCompoundRel, Relation.IsPart, Set.subset_def, Set.eq_empty_iff_forall_notMem,
      Set.Nonempty, Set.mem_inter_iff, Set.mem_union, reduceCtorEq, false_iff, true_iff] at * <;> grind

theorem linearPart (h : Drawn l S) (h' : Located l' I B E) (ns : S.Nonempty)
    (hr : LinearCompoundRel S I B E r ∨
      ((S ∩ E).Nonempty ∧ (r = .cross ∨ r = .touch)) ∨ (r = .enclosed ∧ S ⊆ B)) :
    r.IsPart ↔ PartOf l l' := by
  obtain ⟨s1, s2, s3, s4⟩ := h'.split
  obtain ⟨x, hx⟩ := ns
  rw [partOf_iff h h'.drawn]
  clear h h'
  cases r <;> simp only [LinearCompoundRel, Relation.IsPart, Set.subset_def, Set.eq_empty_iff_forall_notMem,
      Set.Nonempty, Set.mem_inter_iff, Set.mem_union, reduceCtorEq, false_iff, true_iff] at * <;> grind

theorem linearEnters (h : Drawn l S) (h' : Located l' I B E) (ns : S.Nonempty)
    (hr : LinearCompoundRel S I B E r ∨ ((S ∩ I).Nonempty ∧ r = .cross)) :
    r.IsInside ↔ Enters l l' := by
  obtain ⟨s1, s2, s3, s4⟩ := h'.split
  obtain ⟨x, hx⟩ := ns
  rw [enters_iff h h']
  clear h h'
  cases r <;> simp only [LinearCompoundRel, Relation.IsInside, Set.subset_def, Set.eq_empty_iff_forall_notMem,
      Set.Nonempty, Set.mem_inter_iff, Set.mem_union, reduceCtorEq, false_iff, true_iff] at * <;> grind

/-- Right answers and those which are wrong in a harmless way. -/
theorem arealTrust (h : Located l I B E) (h' : Located l' I' B' E') (ni : I.Nonempty ∧ B.Nonempty)
    (ni' : I'.Nonempty ∧ B'.Nonempty)
    (hr : CompoundRel I B E I' B' E' r ∨ ((B ∩ B').Nonempty ∧ (r = .overlap ∨
      (r = .enclosed ∧ I ∪ B ⊆ I' ∪ B') ∨ (r = .encloses ∧ I' ∪ B' ⊆ I ∪ B)))) :
    ArealTrust l l' r ∧ ExactInside l l' r := by
  obtain ⟨s1, s2, s3, s4⟩ := h.split
  obtain ⟨t1, t2, t3, t4⟩ := h'.split
  obtain ⟨⟨x, hx⟩, y, hy⟩ := ni
  obtain ⟨⟨x', hx'⟩, y', hy'⟩ := ni'
  have d : NoCommon l l' ↔ I ∪ B ⊆ E' := noCommon_iff h.drawn h'
  have w : InsideOf l l' ↔ I ∪ B ⊆ I' := insideOf_iff h.drawn h'
  have c : InsideOf l' l ↔ I' ∪ B' ⊆ I := insideOf_iff h'.drawn h
  have p : PartOf l l' ↔ _ := partOf_iff h.drawn h'.drawn
  have p' : PartOf l' l ↔ _ := partOf_iff h'.drawn h.drawn
  have m : Intermix l l' ↔ (I ∩ I').Nonempty := intermix_iff h h'
  have a1 : r = .disjoint ↔ I ∪ B ⊆ E' := by
    clear d w c p p' m h h'
    cases r <;> simp only [CompoundRel, Set.subset_def, Set.eq_empty_iff_forall_notMem,
      Set.Nonempty, Set.mem_inter_iff, Set.mem_union, reduceCtorEq, false_iff, true_iff, Set.ext_iff,
      Set.mem_empty_iff_false] at * <;> grind
  have a2 : r = .within ↔ I ∪ B ⊆ I' := by
    clear d w c p p' m h h' a1
    cases r <;> simp only [CompoundRel, Set.subset_def, Set.eq_empty_iff_forall_notMem,
      Set.Nonempty, Set.mem_inter_iff, Set.mem_union, reduceCtorEq, false_iff, true_iff, Set.ext_iff,
      Set.mem_empty_iff_false] at * <;> grind
  have a3 : r = .cover ↔ I' ∪ B' ⊆ I := by
    clear d w c p p' m h h' a1 a2
    cases r <;> simp only [CompoundRel, Set.subset_def, Set.eq_empty_iff_forall_notMem,
      Set.Nonempty, Set.mem_inter_iff, Set.mem_union, reduceCtorEq, false_iff, true_iff, Set.ext_iff,
      Set.mem_empty_iff_false] at * <;> grind
  refine ⟨⟨(propext d) ▸ a1, fun q => a2.mpr (w.mp q), fun q => a3.mpr (c.mp q), (propext p) ▸ ?_, (propext p') ▸ ?_, (propext m) ▸ ?_⟩,
      (propext w) ▸ a2, (propext c) ▸ a3⟩ <;>
    clear d w c p p' m h h' a1 a2 a3 <;>
    cases r <;> simp only [CompoundRel, Relation.IsPart, Relation.IsWhole, Set.subset_def,
      Set.eq_empty_iff_forall_notMem,
      Set.Nonempty, Set.mem_inter_iff, Set.mem_union, reduceCtorEq, false_iff, true_iff, Set.ext_iff,
      Set.mem_empty_iff_false] at * <;> grind

/-- Parts are recognised. -/
theorem arealPart (h : Located l I B E) (h' : Located l' I' B' E') (ni : I.Nonempty ∧ B.Nonempty)
    (ni' : I'.Nonempty ∧ B'.Nonempty) (n' : NearBy I' B' E' I E)
    (hr : CompoundRel I B E I' B' E' r ∨ ((I ∩ E').Nonempty ∧ ¬ r.IsPart) ∨
      (r.IsPart ∧ I ∪ B ⊆ I' ∪ B')) :
    r.IsPart ↔ PartOf l l' := by
  obtain ⟨s1, s2, s3, s4⟩ := h.split
  obtain ⟨t1, t2, t3, t4⟩ := h'.split
  obtain ⟨⟨x, hx⟩, y, hy⟩ := ni
  obtain ⟨⟨x', hx'⟩, y', hy'⟩ := ni'
  rw [partOf_iff h.drawn h'.drawn]
  unfold NearBy at n'
  clear h h'
  cases r <;> simp only [CompoundRel, Relation.IsPart, Set.subset_def,
      Set.eq_empty_iff_forall_notMem,
      Set.Nonempty, Set.mem_inter_iff, Set.mem_union, reduceCtorEq, false_iff, true_iff, Set.ext_iff,
      Set.mem_empty_iff_false] at * <;> grind

/-- Wholes are recognised. -/
theorem arealWhole (h : Located l I B E) (h' : Located l' I' B' E') (ni : I.Nonempty ∧ B.Nonempty)
    (ni' : I'.Nonempty ∧ B'.Nonempty) (n : NearBy I B E I' E')
    (hr : CompoundRel I B E I' B' E' r ∨ ((E ∩ I').Nonempty ∧ ¬ r.IsWhole) ∨
      (r.IsWhole ∧ I' ∪ B' ⊆ I ∪ B)) :
    r.IsWhole ↔ PartOf l' l := by
  obtain ⟨s1, s2, s3, s4⟩ := h.split
  obtain ⟨t1, t2, t3, t4⟩ := h'.split
  obtain ⟨⟨x, hx⟩, y, hy⟩ := ni
  obtain ⟨⟨x', hx'⟩, y', hy'⟩ := ni'
  rw [partOf_iff h'.drawn h.drawn]
  unfold NearBy at n
  clear h h'
  cases r <;> simp only [CompoundRel, Relation.IsWhole, Set.subset_def,
      Set.eq_empty_iff_forall_notMem,
      Set.Nonempty, Set.mem_inter_iff, Set.mem_union, reduceCtorEq, false_iff, true_iff, Set.ext_iff,
      Set.mem_empty_iff_false] at * <;> grind

theorem arealIntermix (h : Located l I B E) (h' : Located l' I' B' E') (ni : I.Nonempty ∧ B.Nonempty)
    (ni' : I'.Nonempty ∧ B'.Nonempty)
    (hr : CompoundRel I B E I' B' E' r ∨ ((I ∩ I').Nonempty ∧ r ≠ .disjoint ∧ r ≠ .touch)) :
    ExactIntermix l l' r := by
  obtain ⟨s1, s2, s3, s4⟩ := h.split
  obtain ⟨t1, t2, t3, t4⟩ := h'.split
  obtain ⟨⟨x, hx⟩, y, hy⟩ := ni
  obtain ⟨⟨x', hx'⟩, y', hy'⟩ := ni'
  unfold ExactIntermix
  rw [intermix_iff h h']
  clear h h'
  cases r <;> simp only [CompoundRel, Set.subset_def,
      Set.eq_empty_iff_forall_notMem,
      Set.Nonempty, Set.mem_inter_iff, Set.mem_union, reduceCtorEq, false_iff, true_iff, Set.ext_iff,
      Set.mem_empty_iff_false] at * <;> grind

end

section

variable {context : Context K} (hc : context.Exact)

include hc

theorem segment_drawn (a : Segment K) : Drawn (planar.pointInSegment · a context) a.pts := fun p => by
  rw [ne_eq, (C01_point_in_segment hc p a).2.1, not_not]

theorem multisegment_drawn (a : Multisegment K) :
    Drawn (planar.pointInMultisegment · a context) (segsPts a.segments) := fun p => by
  rw [ne_eq, (C03_point_in_multisegment hc p a).2]
  simp [segsPts]

theorem contour_drawn (a : Contour K) : Drawn (planar.pointInContour · a context) a.pts := fun p => by
  rw [ne_eq, (C07_point_in_contour hc p a).2, not_not, contour_boundary hc]

omit hc in
theorem multiregion_full {a : Multiregion K} (h : Multiregion.Valid a) (ne : a ≠ []) :
    (Multiregion.interior a).Nonempty ∧ (Multiregion.pts a).Nonempty := by
  obtain ⟨c, hm⟩ := List.exists_mem_of_ne_nil _ ne
  obtain ⟨x, hx⟩ := (h.simple c hm).interior_nonempty
  obtain ⟨y, hy⟩ := (h.simple c hm).exists_mem
  exact ⟨⟨x, c, hm, hx⟩, y, c, hm, hy⟩

omit hc in
theorem multipolygon_full {a : Multipolygon K} (h : a.Valid) (ne : a.polygons ≠ []) :
    a.interior.Nonempty ∧ a.pts.Nonempty := by
  obtain ⟨g, hm⟩ := List.exists_mem_of_ne_nil _ ne
  obtain ⟨⟨x, hx⟩, y, hy⟩ := polygon_nonempty (h.valid g hm)
  exact ⟨⟨x, g, hm, hx⟩, y, g, hm, hy⟩

omit hc in
theorem multipolygon_beside {m : Multipolygon K} (h : m.Valid) {T : List (Segment K)}
    {I E : Set (Point K)} (t : Areal T I E) : NearBy m.interior m.pts m.exterior I E := fun _ hz =>
  (multipolygon_areal h).near t (by rwa [segsPts_polygonsEdges])

/-! ### linear geometries and areal ones -/

/-- C82: `contour_in_region`. -/
theorem C82_contour_in_region {a : Contour K} {b : Region K} (va : a.Simple) (vb : Contour.Simple b) :
    ∃ r, planar.contourInRegion a b context = .ok r ∧ LinearTrust (planar.pointInContour · a context) (planar.pointInRegion · b context) r ∧ (r.IsPart ↔ PartOf (planar.pointInContour · a context) (planar.pointInRegion · b context)) ∧ (r.IsInside ↔ Enters (planar.pointInContour · a context) (planar.pointInRegion · b context)) := by
  obtain ⟨r, hr, h⟩ := C33_contour_in_region hc va vb
  have d := contour_drawn hc a
  have l := region_located hc vb
  exact ⟨r, hr, linearTrust d l va.exists_mem (.inl h), linearPart d l va.exists_mem (.inl h),
    linearEnters d l va.exists_mem (.inl h)⟩

/-- C82: `multisegment_in_region`. -/
theorem C82_multisegment_in_region {a : Multisegment K} {b : Region K} (va : SegmentsValid a.segments) (na : a.segments ≠ []) (vb : Contour.Simple b) :
    ∃ r, planar.multisegmentInRegion a b context = .ok r ∧ LinearTrust (planar.pointInMultisegment · a context) (planar.pointInRegion · b context) r ∧ (r.IsPart ↔ PartOf (planar.pointInMultisegment · a context) (planar.pointInRegion · b context)) := by
  obtain ⟨r, hr, h⟩ := C34_multisegment_in_region hc na va vb
  have d := multisegment_drawn hc a
  have l := region_located hc vb
  have ns := segsPts_nonempty na
  rcases h with h | ⟨rfl, -, ⟨x, x1, x2⟩, y, y1, y2⟩
  · exact ⟨r, hr, linearTrust d l ns (.inl h), linearPart d l ns (.inl h)⟩
  · exact ⟨_, hr, linearTrust d l ns (.inr ⟨fun h => l.split.ie x x2 (h x1), fun h => l.split.ie y (h y1) y2,
      .inr (.inl rfl)⟩), linearPart d l ns (.inr (.inl ⟨⟨y, y1, y2⟩, .inr rfl⟩))⟩

/-- C82: `segment_in_multiregion`. -/
theorem C82_segment_in_multiregion {a : Segment K} {b : Multiregion K} (va : a.Nondegenerate) (vb : Multiregion.Valid b) :
    ∃ r, planar.segmentInMultiregion a b context = .ok r ∧ LinearTrust (planar.pointInSegment · a context) (planar.pointInMultiregion · b context) r ∧ (r.IsInside ↔ Enters (planar.pointInSegment · a context) (planar.pointInMultiregion · b context)) := by
  obtain ⟨r, hr, h⟩ := C73_segment_in_multiregion hc va vb
  have h := (h r).mpr rfl
  have d := segment_drawn hc a
  have l := multiregion_located hc vb
  have ns : a.pts.Nonempty := ⟨_, Segment.start_mem a⟩
  by_cases hX : EdgesCross (b.flatMap Contour.edgeList) [a]
  · have hn : ∀ v ∈ b.flatMap Contour.edgeList, v.Nondegenerate := fun v hv => by
      obtain ⟨c, h1, h2⟩ := List.mem_flatMap.mp hv
      exact (vb.simple c h1).nondegenerate h2
    obtain ⟨h1, h2, -⟩ := multiregion_crossed vb (List.Sublist.refl _) (by simpa using va)
      (hX.crosses hn (by simpa using va))
    rw [segsPts_singleton] at h1 h2
    obtain ⟨x, x1, x2⟩ := h2
    obtain rfl := h.1 hX
    exact ⟨_, hr, linearTrust d l ns (.inr ⟨fun h => l.split.be x x2 (h x1), fun h => l.split.ib x (h x1) x2,
      .inl rfl⟩), linearEnters d l ns (.inr ⟨h1, rfl⟩)⟩
  · exact ⟨r, hr, linearTrust d l ns (.inl (h.2 hX)), linearEnters d l ns (.inl (h.2 hX))⟩

/-- C82: `contour_in_multiregion`. -/
theorem C82_contour_in_multiregion {a : Contour K} {b : Multiregion K} (va : a.Simple) (vb : Multiregion.Valid b) :
    ∃ r, planar.contourInMultiregion a b context = .ok r ∧ LinearTrust (planar.pointInContour · a context) (planar.pointInMultiregion · b context) r ∧ (r.IsInside ↔ Enters (planar.pointInContour · a context) (planar.pointInMultiregion · b context)) := by
  obtain ⟨r, hr, h⟩ := C73_contour_in_multiregion hc va vb
  have h := (h r).mpr rfl
  have d := contour_drawn hc a
  have l := multiregion_located hc vb
  have ns : a.pts.Nonempty := va.exists_mem
  by_cases hX : EdgesCross (b.flatMap Contour.edgeList) a.edgeList
  · have hn : ∀ v ∈ b.flatMap Contour.edgeList, v.Nondegenerate := fun v hv => by
      obtain ⟨c, h1, h2⟩ := List.mem_flatMap.mp hv
      exact (vb.simple c h1).nondegenerate h2
    obtain ⟨h1, h2, -⟩ := multiregion_crossed vb (List.Sublist.refl _) (fun u hu => va.nondegenerate hu)
      (hX.crosses hn (fun u hu => va.nondegenerate hu))
    rw [← Contour.pts] at h1 h2
    obtain ⟨x, x1, x2⟩ := h2
    obtain rfl := h.1 hX
    exact ⟨_, hr, linearTrust d l ns (.inr ⟨fun h => l.split.be x x2 (h x1), fun h => l.split.ib x (h x1) x2,
      .inl rfl⟩), linearEnters d l ns (.inr ⟨h1, rfl⟩)⟩
  · exact ⟨r, hr, linearTrust d l ns (.inl (h.2 hX)), linearEnters d l ns (.inl (h.2 hX))⟩

omit hc in
theorem segsPts_flatMap (m : Multiregion K) : segsPts (m.flatMap Contour.edgeList) = Multiregion.pts m :=
  segsPts_edgesOf m

omit hc in
theorem segsPts_polygons (m : Multipolygon K) : segsPts (m.polygons.flatMap Polygon.edges) = m.pts :=
  segsPts_polygonsEdges m

omit hc in
theorem polygon_nondegenerate {g : Polygon K} (h : g.Valid) {v : Segment K} (hv : v ∈ g.edges) :
    v.Nondegenerate := by
  rcases List.mem_append.mp hv with hv | hv
  · exact h.border.nondegenerate hv
  · obtain ⟨d, hd, hv⟩ := List.mem_flatMap.mp hv
    exact (h.holes.simple d hd).nondegenerate hv

omit hc in
theorem edgesCross_meet {G T : List (Segment K)} (h : EdgesCross G T) : (segsPts T ∩ segsPts G).Nonempty := by
  obtain ⟨u, hu, v, hv, p, hp, -⟩ := h
  exact ⟨p, ⟨u, hu, hp.1⟩, v, hv, hp.2⟩

/-- C82: `multisegment_in_multiregion`. -/
theorem C82_multisegment_in_multiregion {a : Multisegment K} {b : Multiregion K} (va : SegmentsValid a.segments) (na : a.segments ≠ []) (vb : Multiregion.Valid b) :
    ∃ r, planar.multisegmentInMultiregion a b context = .ok r ∧ LinearTrust (planar.pointInMultisegment · a context) (planar.pointInMultiregion · b context) r := by
  obtain ⟨r, hr, h⟩ := C73_multisegment_in_multiregion hc na va vb
  have h := (h r).mpr rfl
  have d := multisegment_drawn hc a
  have l := multiregion_located hc vb
  have ns : (segsPts a.segments).Nonempty := segsPts_nonempty na
  rcases h.cases with h | ⟨rfl, -, -, ⟨x, x1, x2⟩, y, y1, y2⟩ | ⟨rfl, hX⟩
  · exact ⟨r, hr, linearTrust d l ns (.inl h)⟩
  · exact ⟨_, hr, linearTrust d l ns (.inr ⟨fun h => l.split.ie x x2 (h x1), fun h => l.split.ie y (h y1) y2,
      .inr (.inl rfl)⟩)⟩
  · have hm := edgesCross_meet hX
    rw [segsPts_flatMap] at hm
    obtain ⟨x, x1, x2⟩ := hm
    exact ⟨_, hr, linearTrust d l ns (.inr ⟨fun h => l.split.be x x2 (h x1), fun h => l.split.ib x (h x1) x2,
      .inl rfl⟩)⟩

/-- C82: `multisegment_in_polygon`. -/
theorem C82_multisegment_in_polygon {a : Multisegment K} {b : Polygon K} (va : SegmentsValid a.segments) (na : a.segments ≠ []) (vb : b.Valid) :
    ∃ r, planar.multisegmentInPolygon a b context = .ok r ∧ LinearTrust (planar.pointInMultisegment · a context) (planar.pointInPolygon · b context) r ∧ (r.IsPart ↔ PartOf (planar.pointInMultisegment · a context) (planar.pointInPolygon · b context)) := by
  obtain ⟨r, hr, h⟩ := C73_multisegment_in_polygon hc na va vb
  have h := (h r).mpr rfl
  have d := multisegment_drawn hc a
  have l := polygon_located hc vb
  have ns : (segsPts a.segments).Nonempty := segsPts_nonempty na
  rcases h.cases with h | ⟨rfl, -, -, ⟨x, x1, x2⟩, y, y1, y2⟩ | ⟨rfl, hX⟩
  · exact ⟨r, hr, linearTrust d l ns (.inl h), linearPart d l ns (.inl h)⟩
  · exact ⟨_, hr, linearTrust d l ns (.inr ⟨fun h => l.split.ie x x2 (h x1), fun h => l.split.ie y (h y1) y2,
      .inr (.inl rfl)⟩), linearPart d l ns (.inr (.inl ⟨⟨y, y1, y2⟩, .inr rfl⟩))⟩
  · have hm := edgesCross_meet hX
    rw [Polygon.segsPts_edges] at hm
    obtain ⟨x, x1, x2⟩ := hm
    obtain ⟨h1, -⟩ := polygon_crossed vb va.1 (hX.crosses (fun v hv => polygon_nondegenerate vb hv) va.1)
    exact ⟨_, hr, linearTrust d l ns (.inr ⟨fun h => l.split.be x x2 (h x1), fun h => l.split.ib x (h x1) x2,
      .inl rfl⟩), linearPart d l ns (.inr (.inl ⟨h1, .inl rfl⟩))⟩

/-- C82: `multisegment_in_multipolygon`. -/
theorem C82_multisegment_in_multipolygon {a : Multisegment K} {b : Multipolygon K} (va : SegmentsValid a.segments) (na : a.segments ≠ []) (vb : b.Valid) :
    ∃ r, planar.multisegmentInMultipolygon a b context = .ok r ∧ LinearTrust (planar.pointInMultisegment · a context) (planar.pointInMultipolygon · b context) r := by
  obtain ⟨r, hr, h⟩ := C73_multisegment_in_multipolygon hc na va vb
  have h := (h r).mpr rfl
  have d := multisegment_drawn hc a
  have l := multipolygon_located hc vb
  have ns : (segsPts a.segments).Nonempty := segsPts_nonempty na
  rcases h.cases with h | ⟨rfl, -, -, ⟨x, x1, x2⟩, y, y1, y2⟩ | ⟨rfl, hX⟩
  · exact ⟨r, hr, linearTrust d l ns (.inl h)⟩
  · exact ⟨_, hr, linearTrust d l ns (.inr ⟨fun h => l.split.ie x x2 (h x1), fun h => l.split.ie y (h y1) y2,
      .inr (.inl rfl)⟩)⟩
  · have hm := edgesCross_meet hX
    rw [segsPts_polygons] at hm
    obtain ⟨x, x1, x2⟩ := hm
    exact ⟨_, hr, linearTrust d l ns (.inr ⟨fun h => l.split.be x x2 (h x1), fun h => l.split.ib x (h x1) x2,
      .inl rfl⟩)⟩

/-- C82: `segment_in_multipolygon`. -/
theorem C82_segment_in_multipolygon {a : Segment K} {b : Multipolygon K} (va : a.Nondegenerate) (vb : b.Valid) :
    ∃ r, planar.segmentInMultipolygon a b context = .ok r ∧ LinearTrust (planar.pointInSegment · a context) (planar.pointInMultipolygon · b context) r := by
  obtain ⟨r, hr, h⟩ := C73_segment_in_multipolygon hc va vb
  have h := (h r).mpr rfl
  have d := segment_drawn hc a
  have l := multipolygon_located hc vb
  have ns : a.pts.Nonempty := ⟨_, Segment.start_mem a⟩
  by_cases hX : EdgesCross (b.polygons.flatMap Polygon.edges) [a]
  swap
  · exact ⟨r, hr, linearTrust d l ns (.inl (h.2 hX))⟩
  · obtain rfl := h.1 hX
    have hm := edgesCross_meet hX
    rw [segsPts_singleton, segsPts_polygons] at hm
    obtain ⟨x, x1, x2⟩ := hm
    exact ⟨_, hr, linearTrust d l ns (.inr ⟨fun h => l.split.be x x2 (h x1), fun h => l.split.ib x (h x1) x2,
      .inl rfl⟩)⟩

/-- C82: `contour_in_multipolygon`. -/
theorem C82_contour_in_multipolygon {a : Contour K} {b : Multipolygon K} (va : a.Simple) (vb : b.Valid) :
    ∃ r, planar.contourInMultipolygon a b context = .ok r ∧ LinearTrust (planar.pointInContour · a context) (planar.pointInMultipolygon · b context) r := by
  obtain ⟨r, hr, h⟩ := C73_contour_in_multipolygon hc va vb
  have h := (h r).mpr rfl
  have d := contour_drawn hc a
  have l := multipolygon_located hc vb
  have ns : a.pts.Nonempty := va.exists_mem
  by_cases hX : EdgesCross (b.polygons.flatMap Polygon.edges) a.edgeList
  swap
  · exact ⟨r, hr, linearTrust d l ns (.inl (h.2 hX))⟩
  · obtain rfl := h.1 hX
    have hm := edgesCross_meet hX
    rw [← Contour.pts, segsPts_polygons] at hm
    obtain ⟨x, x1, x2⟩ := hm
    exact ⟨_, hr, linearTrust d l ns (.inr ⟨fun h => l.split.be x x2 (h x1), fun h => l.split.ib x (h x1) x2,
      .inl rfl⟩)⟩

/-- C82: `contour_in_polygon`. -/
theorem C82_contour_in_polygon {a : Contour K} {b : Polygon K} (va : a.Simple) (vb : b.Valid) :
    ∃ r, planar.contourInPolygon a b context = .ok r ∧
      LinearTrust (planar.pointInContour · a context) (planar.pointInPolygon · b context) r ∧
      (r.IsPart ↔ PartOf (planar.pointInContour · a context) (planar.pointInPolygon · b context)) := by
  obtain ⟨r, hr, h⟩ := C74_contour_in_polygon hc va vb
  obtain ⟨h1, h2, h3⟩ := (h r).mpr rfl
  have d := contour_drawn hc a
  have l := polygon_located hc vb
  have ns : a.pts.Nonempty := va.exists_mem
  by_cases hX : (a.pts ∩ b.border.interior).Nonempty ∧ ((a.pts ∩ b.border.exterior).Nonempty ∨
          EdgesCross (b.holes.flatMap Contour.edgeList) a.edgeList ∨
          ((a.pts ∩ Multiregion.interior b.holes).Nonempty ∧
            (a.pts ∩ Multiregion.exterior b.holes).Nonempty))
  · obtain rfl := h1 hX
    have out : (a.pts ∩ b.exterior).Nonempty := by
      rcases hX.2 with ⟨x, x1, x2⟩ | h | ⟨⟨x, x1, x2⟩, -⟩
      · exact ⟨x, x1, .inl x2⟩
      · have hn : ∀ v ∈ b.holes.flatMap Contour.edgeList, v.Nondegenerate := fun v hv =>
          polygon_nondegenerate vb (List.mem_append_right _ hv)
        obtain ⟨⟨x, x1, x2⟩, -⟩ := multiregion_crossed vb.holes (List.Sublist.refl _)
          (fun u hu => va.nondegenerate hu) (h.crosses hn fun u hu => va.nondegenerate hu)
        exact ⟨x, x1, .inr x2⟩
      · exact ⟨x, x1, .inr x2⟩
    have inn : ¬ a.pts ⊆ b.exterior := by
      intro hs
      have onB : (a.pts ∩ b.border.exterior).Nonempty → False := fun h => by
        obtain ⟨z, z1, z2⟩ := Contour.meet_of_both hX.1 h
        exact l.split.be z (.inl z2) (hs z1)
      rcases hX.2 with h | h | ⟨-, x, x1, x2⟩
      · exact onB h
      · obtain ⟨z, z1, z2⟩ := edgesCross_meet h
        rw [segsPts_flatMap] at z2
        exact l.split.be z (.inr z2) (hs z1)
      · rcases hs x1 with h | h
        · exact onB ⟨x, x1, h⟩
        · exact vb.holes.split.ie x h x2
    obtain ⟨y, y1, y2⟩ := out
    exact ⟨_, hr, linearTrust d l ns (.inr ⟨inn, fun h => l.split.ie y (h y1) y2, .inl rfl⟩),
      linearPart d l ns (.inr (.inl ⟨⟨y, y1, y2⟩, .inl rfl⟩))⟩
  by_cases hY : a.pts ⊆ b.pts ∧ ¬ a.pts ⊆ b.border.pts ∧ ¬ a.pts ⊆ Multiregion.pts b.holes
  · obtain rfl := h2 hX hY
    obtain ⟨x, hx⟩ := va.exists_mem
    exact ⟨_, hr, linearTrust d l ns (.inr ⟨fun h => l.split.be x (hY.1 hx) (h hx),
      fun h => l.split.ib x (h hx) (hY.1 hx), .inr (.inr ⟨rfl, hY.1⟩)⟩),
      linearPart d l ns (.inr (.inr ⟨rfl, hY.1⟩))⟩
  · have h := h3 hX hY
    exact ⟨r, hr, linearTrust d l ns (.inl h), linearPart d l ns (.inl h)⟩

/-- A segment with points at both sides of a contour meets it. -/
theorem segment_meet_of_both {s : Segment K} (hs : s.Nondegenerate) {c : Contour K} (h : c.Simple)
    (h1 : (s.pts ∩ c.interior).Nonempty) (h2 : (s.pts ∩ c.exterior).Nonempty) : (s.pts ∩ c.pts).Nonempty := by
  obtain ⟨r, hr, -⟩ := C66_always_answers hc hs h
  obtain ⟨d1, d2⟩ := C66_disjoint_within hc hs h
  rcases segmentInRegion_cases hc hs h hr with ⟨-, h'⟩ | ⟨-, e, he, h'⟩ | ⟨h0, h'⟩ | ⟨hne, -⟩
  · rcases h' with ⟨e, he, p, hp, -⟩ | ⟨p, v, q, h1, -, h2, -⟩
    · have : p ∈ s.pts ∩ e.pts := hp ▸ rfl
      exact ⟨p, this.1, e, he, this.2⟩
    · exact ⟨v, h2, _, h1, Segment.finish_mem _⟩
  · exact ⟨_, Segment.start_mem s, e, he, h' (Segment.start_mem s)⟩
  · exfalso
    obtain ⟨x, x1, x2⟩ := h1
    obtain ⟨y, y1, y2⟩ := h2
    rcases h' with rfl | rfl
    · exact Contour.not_both x2 (d1.mp hr x1)
    · exact Contour.not_both (d2.mp hr y1) y2
  · exact hne

/-- C82: `segment_in_region`; that `ENCLOSED` is right is not said (C75). -/
theorem C82_segment_in_region {a : Segment K} {b : Region K} (va : a.Nondegenerate) (vb : Contour.Simple b) :
    ∃ r, planar.segmentInRegion a b context = .ok r ∧
      (r = .disjoint ↔ NoCommon (planar.pointInSegment · a context) (planar.pointInRegion · b context)) ∧
      (r = .within ↔ InsideOf (planar.pointInSegment · a context) (planar.pointInRegion · b context)) := by
  obtain ⟨r, hr, -⟩ := C66_always_answers hc va vb
  obtain ⟨h1, h2⟩ := C66_disjoint_within hc va vb
  rw [hr, Except.ok.injEq] at h1 h2
  refine ⟨r, hr, ?_⟩
  rw [h1, h2, noCommon_iff (segment_drawn hc a) (region_located hc vb),
    insideOf_iff (segment_drawn hc a) (region_located hc vb)]
  exact ⟨Iff.rfl, Iff.rfl⟩

/-- C82: `segment_in_polygon`, likewise. -/
theorem C82_segment_in_polygon {a : Segment K} {b : Polygon K} (va : a.Nondegenerate) (vb : b.Valid) :
    ∃ r, planar.segmentInPolygon a b context = .ok r ∧
      (r = .disjoint ↔ NoCommon (planar.pointInSegment · a context) (planar.pointInPolygon · b context)) ∧
      (r = .within ↔ InsideOf (planar.pointInSegment · a context) (planar.pointInPolygon · b context)) := by
  obtain ⟨r, hr, h1, h2⟩ := C82_segment_in_region hc va vb.border
  obtain ⟨q, hq, ht, -⟩ := C82_segment_in_multiregion hc va vb.holes
  rw [noCommon_iff (segment_drawn hc a) (region_located hc vb.border)] at h1
  rw [insideOf_iff (segment_drawn hc a) (region_located hc vb.border)] at h2
  have h3 := ht.disjoint
  have h4 := ht.within
  rw [noCommon_iff (segment_drawn hc a) (multiregion_located hc vb.holes)] at h3
  rw [insideOf_iff (segment_drawn hc a) (multiregion_located hc vb.holes)] at h4
  rw [noCommon_iff (segment_drawn hc a) (polygon_located hc vb),
    insideOf_iff (segment_drawn hc a) (polygon_located hc vb)]
  have conn := segment_meet_of_both hc va vb.border
  have onB : a.pts ⊆ b.exterior → a.pts ⊆ b.border.exterior ∨ a.pts ⊆ Multiregion.interior b.holes := by
    intro hs
    by_cases hE : (a.pts ∩ b.border.exterior).Nonempty
    · refine .inl fun x hx => (hs hx).resolve_right fun ⟨d, hd, hi⟩ => ?_
      obtain ⟨z, z1, z2⟩ := conn ⟨x, hx, vb.inside d hd hi⟩ hE
      exact vb.split.be z (.inl z2) (hs z1)
    · exact .inr fun x hx => (hs hx).resolve_left fun h => hE ⟨x, hx, h⟩
  have s0 := Segment.start_mem a
  have sb := vb.border.split
  have sh := vb.holes.split
  have hq' : b.holes = [] → q = .disjoint := fun e => h3.mpr fun x _ => by simp [Multiregion.exterior, e]
  have i1 : a.pts ⊆ b.interior ↔ r = .within ∧ q = .disjoint := by
    rw [h2, h3]
    exact ⟨fun h => ⟨fun x hx => (h hx).1, fun x hx => (h hx).2⟩, fun h x hx => ⟨h.1 hx, h.2 hx⟩⟩
  have i2 : a.pts ⊆ b.exterior ↔ r = .disjoint ∨ q = .within := by
    rw [h1, h4]
    exact ⟨onB, fun h x hx => h.imp (fun h => h hx) fun h => h hx⟩
  have i3 : q = .within → r = .within := fun h => h2.mpr fun x hx => by
    obtain ⟨d, hd, hi⟩ := h4.mp h hx
    exact vb.inside d hd hi
  have hr : region.relateSegment b.border a context = .ok r := hr
  have hq : multiregion.relateSegment b.holes a context = .ok q := hq
  rw [i1, i2]
  unfold planar.segmentInPolygon polygon.relateSegment
  simp only [hr, hq, bind, Except.bind, pure, Except.pure]
  clear h1 h2 h3 h4 i1 i2 onB hr hq ht
  by_cases hh : b.holes = []
  · refine ⟨r, by simp [hh], ?_⟩
    have := hq' hh
    subst this
    simp
  · by_cases hin : r = .within ∨ r = .enclosed
    · simp only [hin, hh, ne_eq, not_false_eq_true, and_self, if_true]
      refine ⟨_, rfl, ?_⟩
      rcases hin with rfl | rfl <;> cases q <;> simp_all
    · refine ⟨r, by simp only [hin, and_false, if_false], ?_⟩
      cases q <;> cases r <;> simp_all

/-! ### areal geometries -/

/-- C82: `region_in_region`. -/
theorem C82_region_in_region {a : Region K} {b : Region K} (va : Contour.Simple a) (vb : Contour.Simple b) :
    ∃ r, planar.regionInRegion a b context = .ok r ∧
      ArealTrust (planar.pointInRegion · a context) (planar.pointInRegion · b context) r ∧ ExactInside (planar.pointInRegion · a context) (planar.pointInRegion · b context) r ∧
      (r.IsPart ↔ PartOf (planar.pointInRegion · a context) (planar.pointInRegion · b context)) ∧
      (r.IsWhole ↔ PartOf (planar.pointInRegion · b context) (planar.pointInRegion · a context)) ∧
      ExactIntermix (planar.pointInRegion · a context) (planar.pointInRegion · b context) r := by
  obtain ⟨r, hr, h⟩ := C32_region_in_region hc va vb
  have la := region_located hc va
  have lb := region_located hc vb
  have fa := And.intro (Contour.Simple.interior_nonempty va) (Contour.Simple.exists_mem va)
  have fb := And.intro (Contour.Simple.interior_nonempty vb) (Contour.Simple.exists_mem vb)
  have na' := Contour.Simple.beside va (Contour.Simple.areal vb)
  have nb' := Contour.Simple.beside vb (Contour.Simple.areal va)
  exact ⟨r, hr, (arealTrust la lb fa fb (.inl h)).1, (arealTrust la lb fa fb (.inl h)).2,
    arealPart la lb fa fb nb' (.inl h), arealWhole la lb fa fb na' (.inl h), arealIntermix la lb fa fb (.inl h)⟩

/-- C82: `region_in_multiregion`. -/
theorem C82_region_in_multiregion {a : Region K} {b : Multiregion K} (va : Contour.Simple a) (vb : Multiregion.Valid b) (nb : b ≠ []) :
    ∃ r, planar.regionInMultiregion a b context = .ok r ∧
      ArealTrust (planar.pointInRegion · a context) (planar.pointInMultiregion · b context) r ∧ ExactInside (planar.pointInRegion · a context) (planar.pointInMultiregion · b context) r ∧
      (r.IsPart ↔ PartOf (planar.pointInRegion · a context) (planar.pointInMultiregion · b context)) ∧
      (r.IsWhole ↔ PartOf (planar.pointInMultiregion · b context) (planar.pointInRegion · a context)) ∧
      ExactIntermix (planar.pointInRegion · a context) (planar.pointInMultiregion · b context) r := by
  obtain ⟨r, hr, h⟩ := C38_region_in_multiregion hc va vb
  have la := region_located hc va
  have lb := multiregion_located hc vb
  have fa := And.intro (Contour.Simple.interior_nonempty va) (Contour.Simple.exists_mem va)
  have fb := multiregion_full vb nb
  have na' := Contour.Simple.beside va (Multiregion.Valid.areal vb)
  have nb' := Multiregion.Valid.beside vb (Contour.Simple.areal va)
  exact ⟨r, hr, (arealTrust la lb fa fb (.inl h)).1, (arealTrust la lb fa fb (.inl h)).2,
    arealPart la lb fa fb nb' (.inl h), arealWhole la lb fa fb na' (.inl h), arealIntermix la lb fa fb (.inl h)⟩

/-- C82: `multiregion_in_multiregion`. -/
theorem C82_multiregion_in_multiregion {a : Multiregion K} {b : Multiregion K} (va : Multiregion.Valid a) (vb : Multiregion.Valid b) (na : a ≠ []) (nb : b ≠ []) :
    ∃ r, planar.multiregionInMultiregion a b context = .ok r ∧
      ArealTrust (planar.pointInMultiregion · a context) (planar.pointInMultiregion · b context) r ∧ ExactInside (planar.pointInMultiregion · a context) (planar.pointInMultiregion · b context) r ∧
      (r.IsPart ↔ PartOf (planar.pointInMultiregion · a context) (planar.pointInMultiregion · b context)) ∧
      (r.IsWhole ↔ PartOf (planar.pointInMultiregion · b context) (planar.pointInMultiregion · a context)) ∧
      ExactIntermix (planar.pointInMultiregion · a context) (planar.pointInMultiregion · b context) r := by
  obtain ⟨r, hr, h⟩ := C38_multiregion_in_multiregion hc va vb na nb
  have la := multiregion_located hc va
  have lb := multiregion_located hc vb
  have fa := multiregion_full va na
  have fb := multiregion_full vb nb
  have na' := Multiregion.Valid.beside va (Multiregion.Valid.areal vb)
  have nb' := Multiregion.Valid.beside vb (Multiregion.Valid.areal va)
  exact ⟨r, hr, (arealTrust la lb fa fb (.inl h)).1, (arealTrust la lb fa fb (.inl h)).2,
    arealPart la lb fa fb nb' (.inl h), arealWhole la lb fa fb na' (.inl h), arealIntermix la lb fa fb (.inl h)⟩

/-- C82: `region_in_multipolygon`. -/
theorem C82_region_in_multipolygon {a : Region K} {b : Multipolygon K} (va : Contour.Simple a) (vb : b.Valid) (nb : b.polygons ≠ []) :
    ∃ r, planar.regionInMultipolygon a b context = .ok r ∧
      ArealTrust (planar.pointInRegion · a context) (planar.pointInMultipolygon · b context) r ∧ ExactInside (planar.pointInRegion · a context) (planar.pointInMultipolygon · b context) r ∧
      (r.IsPart ↔ PartOf (planar.pointInRegion · a context) (planar.pointInMultipolygon · b context)) ∧
      (r.IsWhole ↔ PartOf (planar.pointInMultipolygon · b context) (planar.pointInRegion · a context)) ∧
      ExactIntermix (planar.pointInRegion · a context) (planar.pointInMultipolygon · b context) r := by
  obtain ⟨r, hr, h⟩ := C41_region_in_multipolygon hc va vb
  have la := region_located hc va
  have lb := multipolygon_located hc vb
  have fa := And.intro (Contour.Simple.interior_nonempty va) (Contour.Simple.exists_mem va)
  have fb := multipolygon_full vb nb
  have na' := Contour.Simple.beside va (multipolygon_areal vb)
  have nb' := multipolygon_beside vb (Contour.Simple.areal va)
  exact ⟨r, hr, (arealTrust la lb fa fb (.inl h)).1, (arealTrust la lb fa fb (.inl h)).2,
    arealPart la lb fa fb nb' (.inl h), arealWhole la lb fa fb na' (.inl h), arealIntermix la lb fa fb (.inl h)⟩

/-- C82: `polygon_in_multipolygon`. -/
theorem C82_polygon_in_multipolygon {a : Polygon K} {b : Multipolygon K} (va : a.Valid) (vb : b.Valid) (nb : b.polygons ≠ []) :
    ∃ r, planar.polygonInMultipolygon a b context = .ok r ∧
      ArealTrust (planar.pointInPolygon · a context) (planar.pointInMultipolygon · b context) r ∧ ExactInside (planar.pointInPolygon · a context) (planar.pointInMultipolygon · b context) r := by
  obtain ⟨r, hr, h⟩ := C73_polygon_in_multipolygon hc va vb nb
  have la := polygon_located hc va
  have lb := multipolygon_located hc vb
  have fa := polygon_nonempty va
  have fb := multipolygon_full vb nb
  rcases ((h r).mpr rfl).cases with h | ⟨rfl, hX⟩
  · exact ⟨r, hr, arealTrust la lb fa fb (.inl h)⟩
  · have hm := edgesCross_meet hX
    rw [Polygon.segsPts_edges, segsPts_polygons] at hm
    exact ⟨_, hr, arealTrust la lb fa fb (.inr ⟨hm, .inl rfl⟩)⟩

/-- C82: `multiregion_in_multipolygon`. -/
theorem C82_multiregion_in_multipolygon {a : Multiregion K} {b : Multipolygon K} (va : Multiregion.Valid a) (vb : b.Valid) (na : a ≠ []) (nb : b.polygons ≠ []) :
    ∃ r, planar.multiregionInMultipolygon a b context = .ok r ∧
      ArealTrust (planar.pointInMultiregion · a context) (planar.pointInMultipolygon · b context) r ∧ ExactInside (planar.pointInMultiregion · a context) (planar.pointInMultipolygon · b context) r := by
  obtain ⟨r, hr, h⟩ := C73_multiregion_in_multipolygon hc va vb na nb
  have la := multiregion_located hc va
  have lb := multipolygon_located hc vb
  have fa := multiregion_full va na
  have fb := multipolygon_full vb nb
  rcases ((h r).mpr rfl).cases with h | ⟨rfl, hX⟩
  · exact ⟨r, hr, arealTrust la lb fa fb (.inl h)⟩
  · have hm := edgesCross_meet hX
    rw [segsPts_flatMap, segsPts_polygons] at hm
    exact ⟨_, hr, arealTrust la lb fa fb (.inr ⟨hm, .inl rfl⟩)⟩

/-- C82: `multipolygon_in_multipolygon`. -/
theorem C82_multipolygon_in_multipolygon {a : Multipolygon K} {b : Multipolygon K} (va : a.Valid) (vb : b.Valid) (na : a.polygons ≠ []) (nb : b.polygons ≠ []) :
    ∃ r, planar.multipolygonInMultipolygon a b context = .ok r ∧
      ArealTrust (planar.pointInMultipolygon · a context) (planar.pointInMultipolygon · b context) r ∧ ExactInside (planar.pointInMultipolygon · a context) (planar.pointInMultipolygon · b context) r := by
  obtain ⟨r, hr, h⟩ := C73_multipolygon_in_multipolygon hc va vb na nb
  have la := multipolygon_located hc va
  have lb := multipolygon_located hc vb
  have fa := multipolygon_full va na
  have fb := multipolygon_full vb nb
  rcases ((h r).mpr rfl).cases with h | ⟨rfl, hX⟩
  · exact ⟨r, hr, arealTrust la lb fa fb (.inl h)⟩
  · have hm := edgesCross_meet hX
    rw [segsPts_polygons, segsPts_polygons] at hm
    exact ⟨_, hr, arealTrust la lb fa fb (.inr ⟨hm, .inl rfl⟩)⟩

/-- C82: `region_in_polygon`. -/
theorem C82_region_in_polygon {a : Region K} {b : Polygon K} (va : Contour.Simple a) (vb : b.Valid) :
    ∃ r, planar.regionInPolygon a b context = .ok r ∧
      ArealTrust (planar.pointInRegion · a context) (planar.pointInPolygon · b context) r ∧
      ExactInside (planar.pointInRegion · a context) (planar.pointInPolygon · b context) r ∧
      (r.IsPart ↔ PartOf (planar.pointInRegion · a context) (planar.pointInPolygon · b context)) ∧
      (r.IsWhole ↔ PartOf (planar.pointInPolygon · b context) (planar.pointInRegion · a context)) ∧
      ExactIntermix (planar.pointInRegion · a context) (planar.pointInPolygon · b context) r := by
  obtain ⟨r, hr, h⟩ := C74_region_in_polygon hc va vb
  obtain ⟨h1, h2⟩ := (h r).mpr rfl
  have la := region_located hc va
  have lb := polygon_located hc vb
  have fa := And.intro (Contour.Simple.interior_nonempty va) (Contour.Simple.exists_mem va)
  have fb := polygon_nonempty vb
  have na' := Contour.Simple.beside va vb.areal
  have nb' := vb.beside (Contour.Simple.areal va)
  by_cases hcm : CompoundRel (Contour.interior a) (Contour.pts a) (Contour.exterior a) b.interior b.pts b.exterior .component
  · obtain rfl := h1 hcm
    obtain ⟨c1, c2, y, y1, y2⟩ := hcm
    obtain ⟨x, hx⟩ := fa.1
    obtain ⟨z, hz⟩ := fa.2
    have hs : Contour.interior a ∪ Contour.pts a ⊆ b.interior ∪ b.pts := Set.union_subset_union c1 c2
    have ht := arealTrust la lb fa fb (r := .enclosed) (.inr ⟨⟨z, hz, c2 hz⟩, .inr (.inl ⟨rfl, hs⟩)⟩)
    exact ⟨_, hr, ht.1, ht.2, arealPart la lb fa fb nb' (.inr (.inr ⟨trivial, hs⟩)),
      arealWhole la lb fa fb na' (.inr (.inl ⟨⟨y, y1, y2⟩, id⟩)),
      arealIntermix la lb fa fb (.inr ⟨⟨x, hx, c1 hx⟩, by decide, by decide⟩)⟩
  · have h := h2 hcm
    exact ⟨r, hr, (arealTrust la lb fa fb (.inl h)).1, (arealTrust la lb fa fb (.inl h)).2,
      arealPart la lb fa fb nb' (.inl h), arealWhole la lb fa fb na' (.inl h), arealIntermix la lb fa fb (.inl h)⟩

/-- C82: `multiregion_in_polygon`. -/
theorem C82_multiregion_in_polygon {a : Multiregion K} {b : Polygon K} (va : Multiregion.Valid a)
    (vb : b.Valid) (na : a ≠ []) :
    ∃ r, planar.multiregionInPolygon a b context = .ok r ∧
      ArealTrust (planar.pointInMultiregion · a context) (planar.pointInPolygon · b context) r ∧
      ExactInside (planar.pointInMultiregion · a context) (planar.pointInPolygon · b context) r ∧
      (r.IsPart ↔ PartOf (planar.pointInMultiregion · a context) (planar.pointInPolygon · b context)) ∧
      ExactIntermix (planar.pointInMultiregion · a context) (planar.pointInPolygon · b context) r := by
  obtain ⟨r', h', -⟩ := C72_multiregion_relation va na vb
  obtain ⟨r, hr, h⟩ := C72_multiregion_in_polygon hc va na vb h'
  have la := multiregion_located hc va
  have lb := polygon_located hc vb
  have fa := multiregion_full va na
  have fb := polygon_nonempty vb
  have nb' := vb.beside va.areal
  obtain ⟨x, hx⟩ := fa.1
  obtain ⟨z, hz⟩ := fa.2
  obtain ⟨x', hx'⟩ := fb.1
  have h' : CompoundRel (Multiregion.interior a) (Multiregion.pts a) (Multiregion.exterior a) b.interior b.pts
    b.exterior r' := h'
  have part : (r' = .component ∨ r' = .equal) → Multiregion.interior a ⊆ b.interior ∧ Multiregion.pts a ⊆ b.pts := by
    rintro (rfl | rfl)
    · exact ⟨h'.1, h'.2.1⟩
    · exact ⟨h'.1.le, h'.2.le⟩
  have whole : (r' = .encloses ∨ r' = .composite) → b.interior ⊆ Multiregion.interior a ∧
      (Multiregion.pts a ∩ b.pts).Nonempty ∧ (Multiregion.interior a ∩ b.exterior).Nonempty := by
    obtain ⟨w, hw⟩ := fb.2
    rintro (rfl | rfl)
    · obtain ⟨q1, q2, ⟨u, u1, u2⟩, q4⟩ := h'
      obtain ⟨v, v1, v2⟩ := ((nb' u u1).1 u2).2
      exact ⟨q1, q4, v, v2, v1⟩
    · exact ⟨h'.1, ⟨w, h'.2.1 hw, hw⟩, h'.2.2⟩
  rcases h with rfl | ⟨-, ⟨rfl, h⟩ | ⟨rfl, h⟩⟩
  · exact ⟨r, hr, (arealTrust la lb fa fb (.inl h')).1, (arealTrust la lb fa fb (.inl h')).2,
      arealPart la lb fa fb nb' (.inl h'), arealIntermix la lb fa fb (.inl h')⟩
  · obtain ⟨w1, w2, w3⟩ := whole h
    have ht := arealTrust la lb fa fb (r := .overlap) (.inr ⟨w2, .inl rfl⟩)
    exact ⟨_, hr, ht.1, ht.2, arealPart la lb fa fb nb' (.inr (.inl ⟨w3, id⟩)),
      arealIntermix la lb fa fb (.inr ⟨⟨x', w1 hx', hx'⟩, by decide, by decide⟩)⟩
  · obtain ⟨w1, w2⟩ := part h
    have hs : Multiregion.interior a ∪ Multiregion.pts a ⊆ b.interior ∪ b.pts := Set.union_subset_union w1 w2
    have ht := arealTrust la lb fa fb (r := .enclosed) (.inr ⟨⟨z, hz, w2 hz⟩, .inr (.inl ⟨rfl, hs⟩)⟩)
    exact ⟨_, hr, ht.1, ht.2, arealPart la lb fa fb nb' (.inr (.inr ⟨trivial, hs⟩)),
      arealIntermix la lb fa fb (.inr ⟨⟨x, hx, w1 hx⟩, by decide, by decide⟩)⟩

/-- C82: `polygon_in_polygon`. -/
theorem C82_polygon_in_polygon {a b : Polygon K} (va : a.Valid) (vb : b.Valid) :
    ∃ r, planar.polygonInPolygon a b context = .ok r ∧
      ArealTrust (planar.pointInPolygon · a context) (planar.pointInPolygon · b context) r ∧
      (r.IsPart ↔ PartOf (planar.pointInPolygon · a context) (planar.pointInPolygon · b context)) ∧
      (r.IsWhole ↔ PartOf (planar.pointInPolygon · b context) (planar.pointInPolygon · a context)) := by
  obtain ⟨r', h', -⟩ := C72_polygon_relation va vb
  obtain ⟨r, hr, h⟩ := C72_polygon_in_polygon hc va vb h'
  have la := polygon_located hc va
  have lb := polygon_located hc vb
  have fa := polygon_nonempty va
  have fb := polygon_nonempty vb
  have h' : CompoundRel a.interior a.pts a.exterior b.interior b.pts b.exterior r' := h'
  have nb' := vb.beside va.areal
  have na' := va.beside vb.areal
  have right := (arealTrust la lb fa fb (.inl h')).1
  have p1 := arealPart la lb fa fb nb' (.inl h')
  have p2 := arealWhole la lb fa fb na' (.inl h')
  have ex := (arealTrust la lb fa fb (.inl h')).2
  have same : (r = .disjoint ↔ r' = .disjoint) ∧ (r' = .within → r = .within) ∧ (r' = .cover → r = .cover) ∧
      (r.IsPart ↔ r'.IsPart) ∧ (r.IsWhole ↔ r'.IsWhole) ∧ (r = .touch → r' = .touch) := by
    rcases h with rfl | ⟨rfl, rfl, -⟩ | ⟨rfl, rfl, -⟩ | ⟨rfl, rfl, -⟩ | ⟨rfl, rfl, -⟩ | ⟨rfl, rfl, -⟩ <;>
      simp [Relation.IsPart, Relation.IsWhole]
  obtain ⟨s1, s2, s3, s4, s5, s6⟩ := same
  exact ⟨r, hr, ⟨s1.trans right.disjoint, fun h => s2 (ex.1.mpr h), fun h => s3 (ex.2.mpr h),
    fun h => right.part (s4.mp h), fun h => right.whole (s5.mp h), fun h e => right.intermix h (s6 e)⟩,
    s4.trans p1, s5.trans p2⟩

/-! ### linear geometries -/

omit hc in
theorem noCommon_drawn {l l' : Point K → Location} {S T : Set (Point K)} (h : Drawn l S) (h' : Drawn l' T) :
    NoCommon l l' ↔ S ∩ T = ∅ := by
  simp only [NoCommon, Set.eq_empty_iff_forall_notMem, Set.mem_inter_iff, ← h _, ← h' _]
  exact forall_congr' fun p => by tauto

omit hc in
theorem curvesTrust {l l' : Point K → Location} {S T : Set (Point K)} (h : Drawn l S) (h' : Drawn l' T)
    {r : Relation} (hd : r = .disjoint ↔ S ∩ T = ∅) (hp : r.IsPart ↔ S ⊆ T) : CurvesTrust l l' r :=
  ⟨hd.trans (noCommon_drawn h h').symm, hp.trans (partOf_iff h h').symm⟩

omit hc in
theorem SetsRel.answers {S T : Set (Point K)} {r : Relation} (hr : SetsRel S T r)
    (p : S ⊆ T → SharesPiece S T) (p' : T ⊆ S → SharesPiece S T) (ns : S.Nonempty) (nt : T.Nonempty) :
    (r = .disjoint ↔ S ∩ T = ∅) ∧ (r.IsPart ↔ S ⊆ T) ∧ (r.IsWhole ↔ T ⊆ S) := by
  have m : SharesPiece S T → (S ∩ T).Nonempty := fun h => h.meet
  cases r <;> simp only [SetsRel, Relation.IsPart, Relation.IsWhole, Set.subset_def, ssubset_iff_subset_not_subset,
    Set.eq_empty_iff_forall_notMem, Set.Nonempty, Set.mem_inter_iff, reduceCtorEq, false_iff, true_iff,
    Set.ext_iff] at * <;> grind

omit hc in
theorem LinearRel.answers {s : Segment K} (hs : s.Nondegenerate) {T : Set (Point K)} {r : Relation}
    (hr : LinearRel s T r) (p' : T ⊆ s.pts → SharesPiece s.pts T) (nt : T.Nonempty) :
    (r = .disjoint ↔ s.pts ∩ T = ∅) ∧ (r.IsPart ↔ s.pts ⊆ T) ∧ (r.IsWhole ↔ T ⊆ s.pts) := by
  have p : s.pts ⊆ T → SharesPiece s.pts T := fun h => ⟨s, hs, le_rfl, h⟩
  have m : SharesPiece s.pts T → (s.pts ∩ T).Nonempty := fun h => h.meet
  have c : s.CrossedBy T → (s.pts ∩ T).Nonempty := fun ⟨p, x, _, hp, _, hx, _⟩ =>
    ⟨p, hp, hx (⟨p, x⟩ : Segment K).start_mem⟩
  have ns : s.pts.Nonempty := ⟨_, s.start_mem⟩
  cases r <;> simp only [LinearRel, Relation.IsPart, Relation.IsWhole, Set.subset_def, ssubset_iff_subset_not_subset,
    Set.eq_empty_iff_forall_notMem, Set.Nonempty, Set.mem_inter_iff, reduceCtorEq, false_iff, true_iff,
    Set.ext_iff] at * <;> grind

omit hc in
theorem segments_piece {l : List (Segment K)} (hl : l ≠ []) (vl : SegmentsValid l) :
    ∃ u : Segment K, u.Nondegenerate ∧ u.pts ⊆ segsPts l := by
  obtain ⟨u, hu⟩ := List.exists_mem_of_ne_nil _ hl
  exact ⟨u, vl.1 u hu, subset_segsPts hu⟩

/-- C82: `segment_in_segment`. -/
theorem C82_segment_in_segment {a b : Segment K} (va : a.Nondegenerate) (vb : b.Nondegenerate) :
    CurvesTrust (planar.pointInSegment · a context) (planar.pointInSegment · b context) (planar.segmentInSegment a b context) ∧
      ((planar.segmentInSegment a b context).IsWhole ↔ PartOf (planar.pointInSegment · b context) (planar.pointInSegment · a context)) := by
  obtain ⟨h1, h2, h3, h4, h5, h6, h7⟩ := C02_segment_in_segment hc va vb
  have hm := (C02_segment_in_segment_symmetries hc va vb).1
  have k1 : (planar.segmentInSegment a b context).IsPart ↔ a.pts ⊆ b.pts := by
    rw [subset_iff_ssubset_or_eq, ← h1, ← h2]
    generalize planar.segmentInSegment a b context = r at hm ⊢
    cases r <;> simp [Relation.IsPart] at hm ⊢
  have k2 : (planar.segmentInSegment a b context).IsWhole ↔ b.pts ⊆ a.pts := by
    rw [subset_iff_ssubset_or_eq, @eq_comm _ b.pts, ← h1, ← h3]
    generalize planar.segmentInSegment a b context = r at hm ⊢
    cases r <;> simp [Relation.IsWhole] at hm ⊢
  exact ⟨curvesTrust (segment_drawn hc a) (segment_drawn hc b) h7 k1,
    k2.trans (partOf_iff (segment_drawn hc b) (segment_drawn hc a)).symm⟩

/-- C82: `segment_in_multisegment`. -/
theorem C82_segment_in_multisegment {a : Segment K} {b : Multisegment K} (va : a.Nondegenerate)
    (vb : SegmentsValid b.segments) (nb : b.segments ≠ []) :
    CurvesTrust (planar.pointInSegment · a context) (planar.pointInMultisegment · b context) (planar.segmentInMultisegment a b context) ∧
      ((planar.segmentInMultisegment a b context).IsWhole → PartOf (planar.pointInMultisegment · b context) (planar.pointInSegment · a context)) := by
  obtain ⟨r, hr, e⟩ := segmentInMultisegment_spec hc va vb
  obtain ⟨u, hu, hub⟩ := segments_piece nb vb
  obtain ⟨h1, h2, h3⟩ := LinearRel.answers va hr (fun h => ⟨u, hu, hub.trans h, hub⟩) ⟨_, hub u.start_mem⟩
  rw [show b = ⟨b.segments⟩ from rfl] at *
  have d := segment_drawn hc a
  have d' := multisegment_drawn hc b
  rw [e]
  split_ifs with h
  · obtain ⟨-, rfl⟩ := h
    exact ⟨curvesTrust d d' (by simpa using h1) (by simpa [Relation.IsPart] using h2), fun h => h.elim⟩
  · exact ⟨curvesTrust d d' h1 h2, fun h => (partOf_iff d' d).mpr (h3.mp h)⟩

/-- C82: `multisegment_in_multisegment`. -/
theorem C82_multisegment_in_multisegment {a b : Multisegment K} (va : SegmentsValid a.segments)
    (na : a.segments ≠ []) (vb : SegmentsValid b.segments) (nb : b.segments ≠ []) :
    ∃ r, planar.multisegmentInMultisegment a b context = .ok r ∧
      CurvesTrust (planar.pointInMultisegment · a context) (planar.pointInMultisegment · b context) r ∧ (r.IsWhole ↔ PartOf (planar.pointInMultisegment · b context) (planar.pointInMultisegment · a context)) := by
  obtain ⟨r, hr, h⟩ := C18_multisegment_in_multisegment hc na nb va vb
  obtain ⟨u, hu, hua⟩ := segments_piece na va
  obtain ⟨v, hv, hvb⟩ := segments_piece nb vb
  obtain ⟨h1, h2, h3⟩ := SetsRel.answers h (fun h => ⟨u, hu, hua, hua.trans h⟩) (fun h => ⟨v, hv, hvb.trans h, hvb⟩)
    ⟨_, hua u.start_mem⟩ ⟨_, hvb v.start_mem⟩
  have d := multisegment_drawn hc a
  have d' := multisegment_drawn hc b
  exact ⟨r, hr, curvesTrust d d' h1 h2, h3.trans (partOf_iff d' d).symm⟩

/-- C82: `multisegment_in_contour`. -/
theorem C82_multisegment_in_contour {a : Multisegment K} {b : Contour K} (va : SegmentsValid a.segments)
    (na : a.segments ≠ []) (vb : b.Simple) :
    ∃ r, planar.multisegmentInContour a b context = .ok r ∧
      CurvesTrust (planar.pointInMultisegment · a context) (planar.pointInContour · b context) r ∧ (r.IsWhole ↔ PartOf (planar.pointInContour · b context) (planar.pointInMultisegment · a context)) := by
  obtain ⟨r, hr, h⟩ := C18_multisegment_in_contour hc na vb.ne_nil va vb.valid
  obtain ⟨u, hu, hua⟩ := segments_piece na va
  obtain ⟨v, hv, -, hvb⟩ := vb.sharesPiece
  obtain ⟨h1, h2, h3⟩ := SetsRel.answers h (fun h => ⟨u, hu, hua, hua.trans h⟩) (fun h => ⟨v, hv, hvb.trans h, hvb⟩)
    ⟨_, hua u.start_mem⟩ ⟨_, hvb v.start_mem⟩
  have d := multisegment_drawn hc a
  have d' := contour_drawn hc b
  exact ⟨r, hr, curvesTrust d d' h1 h2, h3.trans (partOf_iff d' d).symm⟩

/-- C82: `segment_in_contour`; a part is missed only if it runs through a vertex without a corner. -/
theorem C82_segment_in_contour {a : Segment K} {b : Contour K} (va : a.Nondegenerate) (vb : b.Simple) :
    ∃ r, planar.segmentInContour a b context = .ok r ∧
      (r = .disjoint ↔ NoCommon (planar.pointInSegment · a context) (planar.pointInContour · b context)) ∧
      (r.IsPart → PartOf (planar.pointInSegment · a context) (planar.pointInContour · b context)) ∧
      (b.StrictCorners → (r.IsPart ↔ PartOf (planar.pointInSegment · a context) (planar.pointInContour · b context))) := by
  obtain ⟨r, hr, h⟩ := segmentInContour_spec hc va vb
  have d := segment_drawn hc a
  have d' := contour_drawn hc b
  have k : r.IsPart ↔ r = .component := by cases r <;> simp [Relation.IsPart, ContourRel] at h ⊢
  have e := C08_segment_in_contour hc va vb
  refine ⟨r, hr, ?_, ?_, fun hs => ?_⟩
  · rw [noCommon_drawn d d']
    have := e .disjoint
    rw [hr] at this
    exact (by simp : r = .disjoint ↔ (Except.ok r : Py Relation) = .ok .disjoint).trans this
  · rw [partOf_iff d d', k]
    rintro rfl
    obtain ⟨v, hv, hs⟩ := h
    exact hs.trans (subset_segsPts hv)
  · rw [partOf_iff d d', k, ← C08_component hc va vb hs, hr]
    simp

/-- C82: `contour_in_contour`. -/
theorem C82_contour_in_contour {a b : Contour K} (va : a.Simple) (vb : b.Simple) :
    ∃ r, planar.contourInContour a b context = .ok r ∧
      CurvesTrust (planar.pointInContour · a context) (planar.pointInContour · b context) r ∧ (r.IsWhole ↔ PartOf (planar.pointInContour · b context) (planar.pointInContour · a context)) := by
  obtain ⟨r, hr, h⟩ := C36_contour_in_contour_partial hc va vb
  have d := contour_drawn hc a
  have d' := contour_drawn hc b
  have p : a.pts ⊆ b.pts ↔ a.pts = b.pts := ⟨vb.pts_eq_of_subset va, fun h => h.le⟩
  have p' : b.pts ⊆ a.pts ↔ a.pts = b.pts := ⟨fun h => (va.pts_eq_of_subset vb h).symm, fun h => h.ge⟩
  have eqShare : a.pts = b.pts → SharesPiece a.pts b.pts := fun h => h ▸ va.sharesPiece
  have m : SharesPiece a.pts b.pts → a.pts ∩ b.pts ≠ ∅ := fun h => Set.nonempty_iff_ne_empty.mp h.meet
  have q : (a.pts ∩ b.pts).Nonempty → a.pts ∩ b.pts ≠ ∅ := fun h => Set.nonempty_iff_ne_empty.mp h
  have x : ContoursRel a b .cross → a.pts ∩ b.pts ≠ ∅ := fun h k => Contour.not_both_of_disjoint k h.2.1 h.2.2
  have key : (r = .disjoint ↔ a.pts ∩ b.pts = ∅) ∧ (r.IsPart ↔ a.pts = b.pts) ∧ (r.IsWhole ↔ a.pts = b.pts) := by
    rcases h with h | ⟨rfl, h, -⟩
    · cases r <;> simp only [ContoursRel, Relation.IsPart, Relation.IsWhole, reduceCtorEq, false_iff, true_iff] at * <;>
        tauto
    · have := x h
      simp only [ContoursRel, Relation.IsPart, Relation.IsWhole, reduceCtorEq, false_iff, true_iff] at *
      tauto
  exact ⟨r, hr, curvesTrust d d' key.1 (key.2.1.trans p.symm), (key.2.2.trans p'.symm).trans (partOf_iff d' d).symm⟩

/-! ### conclusions from several answers -/

omit hc in
/-- What is a part of a geometry has no common points with what has none with the geometry. -/
theorem partOf_noCommon {l l' l'' : Point K → Location} (h : PartOf l l') (h' : NoCommon l' l'') : NoCommon l l'' :=
  fun p => (em (l p = .exterior)).imp_right fun k => (h' p).resolve_left (h p k)

omit hc in
theorem partOf_insideOf {l l' l'' : Point K → Location} (h : PartOf l l') (h' : InsideOf l' l'') : InsideOf l l'' :=
  fun p k => h' p (h p k)

omit hc in
theorem partOf_trans {l l' l'' : Point K → Location} (h : PartOf l l') (h' : PartOf l' l'') : PartOf l l'' :=
  fun p k => h' p (h p k)

/-- C82: for all valid polygons, being a part is transitive in the answers, and parts of polygons without common
points with a third one have none. -/
theorem C82_polygons {a b c : Polygon K} (va : a.Valid) (vb : b.Valid) (vc : c.Valid) {r r' : Relation}
    (h : planar.polygonInPolygon a b context = .ok r) (h' : planar.polygonInPolygon b c context = .ok r')
    (hr : r.IsPart) :
    (r'.IsPart → ∃ q, planar.polygonInPolygon a c context = .ok q ∧ q.IsPart) ∧
      (r' = .disjoint → planar.polygonInPolygon a c context = .ok .disjoint) := by
  obtain ⟨_, e1, t1, -⟩ := C82_polygon_in_polygon hc va vb
  obtain ⟨_, e2, t2, -⟩ := C82_polygon_in_polygon hc vb vc
  obtain ⟨q, e3, t3, p3, -⟩ := C82_polygon_in_polygon hc va vc
  obtain rfl := Except.ok.inj (h.symm.trans e1)
  obtain rfl := Except.ok.inj (h'.symm.trans e2)
  refine ⟨fun k => ⟨q, e3, p3.mpr (partOf_trans (t1.part hr) (t2.part k))⟩, fun k => ?_⟩
  rw [e3, t3.disjoint.mpr (partOf_noCommon (t1.part hr) (t2.disjoint.mp k))]

/-- C82: segments which are answered to be parts of segments, and a polygon. -/
theorem C82_segments {a b : Segment K} {c : Polygon K} (va : a.Nondegenerate) (vb : b.Nondegenerate) (vc : c.Valid)
    (h : (planar.segmentInSegment a b context).IsPart) :
    (planar.segmentInPolygon b c context = .ok .within → planar.segmentInPolygon a c context = .ok .within) ∧
      (planar.segmentInPolygon b c context = .ok .disjoint → planar.segmentInPolygon a c context = .ok .disjoint) := by
  have p := (C82_segment_in_segment hc va vb).1.part.mp h
  obtain ⟨r, e, d, w⟩ := C82_segment_in_polygon hc va vc
  obtain ⟨r', e', d', w'⟩ := C82_segment_in_polygon hc vb vc
  rw [e, e']
  simp only [Except.ok.injEq]
  exact ⟨fun k => w.mpr (partOf_insideOf p (w'.mp k)), fun k => d.mpr (partOf_noCommon p (d'.mp k))⟩

end

/-! ### Concrete cases -/

/-- C82: a square in a square with a hole, which is wrongly answered to be `WITHIN` a polygon with two holes (it is
`ENCLOSED`, see C25), so it is a part of the latter. -/
theorem C82_example :
    let s : Polygon ℚ := ⟨⟨[⟨2, 2⟩, ⟨3, 2⟩, ⟨3, 3⟩, ⟨2, 3⟩]⟩, []⟩
    let t : Polygon ℚ := ⟨⟨[⟨2, 2⟩, ⟨8, 2⟩, ⟨8, 8⟩, ⟨2, 8⟩]⟩, [⟨[⟨3, 3⟩, ⟨6, 3⟩, ⟨6, 6⟩, ⟨3, 6⟩]⟩]⟩
    let g : Polygon ℚ := ⟨⟨[⟨0, 0⟩, ⟨10, 0⟩, ⟨10, 10⟩, ⟨0, 10⟩]⟩,
      [⟨[⟨4, 4⟩, ⟨5, 4⟩, ⟨5, 5⟩, ⟨4, 5⟩]⟩, ⟨[⟨8, 4⟩, ⟨9, 4⟩, ⟨9, 5⟩, ⟨8, 5⟩]⟩]⟩
    s.Valid ∧ t.Valid ∧ g.Valid ∧
      planar.polygonInPolygon s t (reference.context : Context ℚ) = .ok .enclosed ∧
      planar.polygonInPolygon t g (reference.context : Context ℚ) = .ok .within ∧
      ∃ q, planar.polygonInPolygon s g (reference.context : Context ℚ) = .ok q ∧ q.IsPart := by
  intro s t g
  have hs : s.Valid := Polygon.valid_of_check (by decide +kernel)
  have ht : t.Valid := Polygon.valid_of_check (by decide +kernel)
  have hg : g.Valid := Polygon.valid_of_check (by decide +kernel)
  have h : planar.polygonInPolygon s t (reference.context : Context ℚ) = .ok .enclosed := by decide +kernel
  have h' : planar.polygonInPolygon t g (reference.context : Context ℚ) = .ok .within := by decide +kernel
  exact ⟨hs, ht, hg, h, h', (C82_polygons reference.context_exact hs ht hg h h' trivial).1 trivial⟩

/-- C82: a segment with ends on a contour which is listed clockwise, about which `segment_in_region` may be wrong; that
it meets the region is still answered. -/
theorem C82_segment_example :
    let a : Segment ℚ := ⟨⟨0, 0⟩, ⟨4, 4⟩⟩
    let b : Region ℚ := ⟨[⟨0, 0⟩, ⟨0, 4⟩, ⟨4, 4⟩, ⟨4, 0⟩]⟩
    a.Nondegenerate ∧ Contour.Simple b ∧
      planar.segmentInRegion a b (reference.context : Context ℚ) ≠ .ok .disjoint ∧
      ¬ NoCommon (planar.pointInSegment · a (reference.context : Context ℚ))
        (planar.pointInRegion · b (reference.context : Context ℚ)) := by
  intro a b
  have ha : a.Nondegenerate := show (⟨0, 0⟩ : Point ℚ) ≠ ⟨4, 4⟩ by decide +kernel
  have hb : Contour.Simple b := Contour.simple_of_check (by decide +kernel)
  have h : planar.segmentInRegion a b (reference.context : Context ℚ) ≠ .ok .disjoint := by decide +kernel
  obtain ⟨r, hr, h1, -⟩ := C82_segment_in_region reference.context_exact ha hb
  exact ⟨ha, hb, h, fun k => h (by rw [hr, h1.mpr k])⟩

/-- C82: a multisegment which is a part of a contour. -/
theorem C82_curves_example :
    let a : Multisegment ℚ := ⟨[⟨⟨1, 0⟩, ⟨2, 0⟩⟩, ⟨⟨4, 1⟩, ⟨4, 3⟩⟩]⟩
    let b : Contour ℚ := ⟨[⟨0, 0⟩, ⟨4, 0⟩, ⟨4, 4⟩, ⟨0, 4⟩]⟩
    SegmentsValid a.segments ∧ b.Simple ∧
      PartOf (planar.pointInMultisegment · a (reference.context : Context ℚ))
        (planar.pointInContour · b (reference.context : Context ℚ)) := by
  intro a b
  have ha : SegmentsValid a.segments := segmentsValid_of_check (by decide +kernel)
  have hb : b.Simple := Contour.simple_of_check (by decide +kernel)
  have h : planar.multisegmentInContour a b (reference.context : Context ℚ) = .ok .component := by decide +kernel
  obtain ⟨r, hr, t, -⟩ := C82_multisegment_in_contour reference.context_exact ha (by decide) hb
  obtain rfl := Except.ok.inj (h.symm.trans hr)
  exact ⟨ha, hb, t.part.mp trivial⟩

end Orient.Props
