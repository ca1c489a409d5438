import Verif.Spec.Rewritten
import Verif.Props.MovedAll

/-! C79: how the operands are written down does not matter, for all valid operands.

Where answers are wrong they may depend on superfluous vertices (C52), but not on orders, directions and first
vertices, with the exceptions of `segment_in_region` and `segment_in_polygon`. -/

set_option linter.unusedSectionVars false

namespace Orient.Props

variable {K : Type} [Field K] [LinearOrder K] [IsStrictOrderedRing K]

/-! ### Lists -/

theorem sameUpTo_exists {α : Type} {R : α → α → Prop} {l m : List α} (h : SameUpTo R l m) {P Q : α → Prop}
    (hp : ∀ a b, R a b → (P a ↔ Q b)) : (∃ a ∈ l, P a) ↔ ∃ b ∈ m, Q b := by
  constructor
  · rintro ⟨a, ha, k⟩
    obtain ⟨b, hb, r⟩ := h.1 a ha
    exact ⟨b, hb, (hp a b r).mp k⟩
  · rintro ⟨b, hb, k⟩
    obtain ⟨a, ha, r⟩ := h.2 b hb
    exact ⟨a, ha, (hp a b r).mpr k⟩

theorem sameUpTo_forall {α : Type} {R : α → α → Prop} {l m : List α} (h : SameUpTo R l m) {P Q : α → Prop}
    (hp : ∀ a b, R a b → (P a ↔ Q b)) : (∀ a ∈ l, P a) ↔ ∀ b ∈ m, Q b := by
  constructor
  · intro k b hb
    obtain ⟨a, ha, r⟩ := h.2 b hb
    exact (hp a b r).mp (k a ha)
  · intro k a ha
    obtain ⟨b, hb, r⟩ := h.1 a ha
    exact (hp a b r).mpr (k b hb)

theorem sameUpTo_nil {α : Type} {R : α → α → Prop} {l m : List α} (h : SameUpTo R l m) : l = [] ↔ m = [] := by
  constructor
  · rintro rfl
    refine List.eq_nil_iff_forall_not_mem.mpr fun b hb => ?_
    obtain ⟨a, ha, -⟩ := h.2 b hb
    simp at ha
  · rintro rfl
    refine List.eq_nil_iff_forall_not_mem.mpr fun b hb => ?_
    obtain ⟨a, ha, -⟩ := h.1 b hb
    simp at ha

theorem sameUpTo_flatMap {α β : Type} {R : α → α → Prop} {S : β → β → Prop} {l m : List α} (h : SameUpTo R l m)
    {F : α → List β} (hp : ∀ a b, R a b → SameUpTo S (F a) (F b)) : SameUpTo S (l.flatMap F) (m.flatMap F) := by
  constructor
  · intro x hx
    obtain ⟨a, ha, hx⟩ := List.mem_flatMap.mp hx
    obtain ⟨b, hb, r⟩ := h.1 a ha
    obtain ⟨y, hy, k⟩ := (hp a b r).1 x hx
    exact ⟨y, List.mem_flatMap.mpr ⟨b, hb, hy⟩, k⟩
  · intro x hx
    obtain ⟨b, hb, hx⟩ := List.mem_flatMap.mp hx
    obtain ⟨a, ha, r⟩ := h.2 b hb
    obtain ⟨y, hy, k⟩ := (hp a b r).2 x hx
    exact ⟨y, List.mem_flatMap.mpr ⟨a, ha, hy⟩, k⟩

theorem sameUpTo_append {α : Type} {R : α → α → Prop} {l m l' m' : List α} (h : SameUpTo R l m)
    (h' : SameUpTo R l' m') : SameUpTo R (l ++ l') (m ++ m') := by
  constructor
  · intro x hx
    rcases List.mem_append.mp hx with hx | hx
    · obtain ⟨y, hy, k⟩ := h.1 x hx
      exact ⟨y, List.mem_append_left _ hy, k⟩
    · obtain ⟨y, hy, k⟩ := h'.1 x hx
      exact ⟨y, List.mem_append_right _ hy, k⟩
  · intro x hx
    rcases List.mem_append.mp hx with hx | hx
    · obtain ⟨y, hy, k⟩ := h.2 x hx
      exact ⟨y, List.mem_append_left _ hy, k⟩
    · obtain ⟨y, hy, k⟩ := h'.2 x hx
      exact ⟨y, List.mem_append_right _ hy, k⟩

/-! ### Sets -/

theorem rewritten_pts {s t : Segment K} (h : s.Rewritten t) : s.pts = t.pts := by
  rcases h with rfl | rfl
  · rfl
  · rw [Segment.pts_reverse]

theorem rewritten_isEndpoint {s t : Segment K} (h : s.Rewritten t) (p : Point K) :
    s.IsEndpoint p ↔ t.IsEndpoint p := by
  rcases h with rfl | rfl
  · rfl
  · rw [Segment.isEndpoint_reverse]

theorem rewritten_nondegenerate {s t : Segment K} (h : s.Rewritten t) (hs : s.Nondegenerate) : t.Nondegenerate := by
  rcases h with rfl | rfl
  · exact hs
  · exact hs.reverse

theorem rewritten_segsPts {l m : List (Segment K)} (h : SameUpTo Segment.Rewritten l m) : segsPts l = segsPts m := by
  ext p
  exact sameUpTo_exists h fun a b r => by rw [rewritten_pts r]

theorem rewritten_edgesCross {G G' T T' : List (Segment K)} (hG : SameUpTo Segment.Rewritten G G')
    (hT : SameUpTo Segment.Rewritten T T') : EdgesCross G T ↔ EdgesCross G' T' := by
  unfold EdgesCross
  refine sameUpTo_exists hT fun u u' r => sameUpTo_exists hG fun v v' s => ?_
  simp only [Segment.LeavesAt, rewritten_segsPts hG, rewritten_segsPts hT, rewritten_pts r, rewritten_pts s,
    rewritten_isEndpoint r, rewritten_isEndpoint s]

theorem sameCycle_exterior {c d : Contour K} (h : c.SameCycle d) : c.exterior = d.exterior := by
  ext p
  unfold Contour.exterior Locates AvoidsVertices
  simp only [Set.mem_ofPred_eq, Contour.SameCycle.pts h, h.mem_vertices, h.edgesMeeting]

theorem sameCycle_sameUpTo {c d : Contour K} (h : c.SameCycle d) :
    SameUpTo Segment.Rewritten c.edgeList d.edgeList := by
  obtain ⟨vs⟩ := c
  obtain ⟨ws⟩ := d
  obtain ⟨k, hk | hk⟩ := h <;> simp only at hk <;> subst hk
  · rw [Contour.edgeList_rotate]
    exact ⟨fun a ha => ⟨a, List.mem_rotate.mp ha, .inl rfl⟩, fun a ha => ⟨a, List.mem_rotate.mpr ha, .inl rfl⟩⟩
  · rw [Contour.edgeList_reverse, Contour.edgeList_rotate]
    have e : ∀ s : Segment K, s.reverse.reverse = s := fun _ => rfl
    refine ⟨fun a ha => ?_, fun a ha => ⟨a.reverse, ?_, .inr rfl⟩⟩
    · simp only [List.mem_reverse, List.mem_map, List.mem_rotate] at ha
      obtain ⟨b, hb, rfl⟩ := ha
      exact ⟨b, hb, .inr rfl⟩
    · simp only [List.mem_reverse, List.mem_map, List.mem_rotate]
      exact ⟨a, ha, rfl⟩

theorem rewritten_multiregion {a b : Multiregion K} (h : Multiregion.Rewritten a b) :
    Multiregion.interior a = Multiregion.interior b ∧ Multiregion.pts a = Multiregion.pts b ∧
      Multiregion.exterior a = Multiregion.exterior b ∧
      SameUpTo Segment.Rewritten (a.flatMap Contour.edgeList) (b.flatMap Contour.edgeList) := by
  refine ⟨?_, ?_, ?_, sameUpTo_flatMap h fun _ _ r => sameCycle_sameUpTo r⟩
  · ext p
    exact sameUpTo_exists h fun c d r => by rw [r.interior]
  · ext p
    exact sameUpTo_exists h fun c d r => by rw [Contour.SameCycle.pts r]
  · ext p
    exact sameUpTo_forall h fun c d r => by rw [sameCycle_exterior r]

theorem rewritten_polygon {a b : Polygon K} (h : a.Rewritten b) :
    a.interior = b.interior ∧ a.pts = b.pts ∧ a.exterior = b.exterior ∧
      SameUpTo Segment.Rewritten a.edges b.edges := by
  obtain ⟨h1, h2, h3, h4⟩ := rewritten_multiregion h.2
  refine ⟨?_, ?_, ?_, sameUpTo_append (sameCycle_sameUpTo h.1) h4⟩
  · simp only [Polygon.interior, h.1.interior, h3]
  · simp only [Polygon.pts, Contour.SameCycle.pts h.1, h2]
  · simp only [Polygon.exterior, sameCycle_exterior h.1, h1]

theorem rewritten_multipolygon {a b : Multipolygon K} (h : a.Rewritten b) :
    a.interior = b.interior ∧ a.pts = b.pts ∧ a.exterior = b.exterior ∧
      SameUpTo Segment.Rewritten (a.polygons.flatMap Polygon.edges) (b.polygons.flatMap Polygon.edges) := by
  refine ⟨?_, ?_, ?_, sameUpTo_flatMap h fun _ _ r => (rewritten_polygon r).2.2.2⟩
  · ext p
    exact sameUpTo_exists h fun c d r => by rw [(rewritten_polygon r).1]
  · ext p
    exact sameUpTo_exists h fun c d r => by rw [(rewritten_polygon r).2.1]
  · ext p
    exact sameUpTo_forall h fun c d r => by rw [(rewritten_polygon r).2.2.1]

theorem rewritten_entangled {a a' b b' : Polygon K} (ha : a.Rewritten a') (hb : b.Rewritten b') :
    a.Entangled b ↔ a'.Entangled b' := by
  unfold Polygon.Entangled
  rw [ha.1.interior, hb.1.interior]
  refine and_congr_right fun _ => and_congr ?_ ?_
  · exact sameUpTo_forall hb.2 fun c d r => by rw [r.interior]
  · exact sameUpTo_forall ha.2 fun c d r => by rw [r.interior]

theorem rewritten_looksWithin {a a' b b' : Polygon K} (ha : a.Rewritten a') (hb : b.Rewritten b') :
    a.LooksWithin b ↔ a'.LooksWithin b' := by
  unfold Polygon.LooksWithin
  rw [ha.1.interior, hb.1.interior, Contour.SameCycle.pts ha.1, (rewritten_multiregion ha.2).1]
  refine and_congr_right fun _ => and_congr ?_ ?_
  · exact sameUpTo_exists hb.2 fun c d r => by rw [r.interior]
  · exact sameUpTo_forall hb.2 fun c d r => by rw [r.interior, Contour.SameCycle.pts r]

section

variable {context : Context K} (hc : context.Exact)

include hc

/-! ### Linear geometries -/

/-- C79: `segment_in_segment`. -/
theorem C79_segment_in_segment {a a' b b' : Segment K} (va : a.Nondegenerate) (vb : b.Nondegenerate)
    (ha : a.Rewritten a') (hb : b.Rewritten b') :
    planar.segmentInSegment a b context = planar.segmentInSegment a' b' context :=
  C52_segment_in_segment hc va (rewritten_nondegenerate ha va) vb (rewritten_nondegenerate hb vb)
    ((sameSegment_iff hc).mpr (rewritten_pts ha)) ((sameSegment_iff hc).mpr (rewritten_pts hb))

/-- C79: `segment_in_multisegment`. -/
theorem C79_segment_in_multisegment {a a' : Segment K} {b b' : Multisegment K} (va : a.Nondegenerate)
    (vb : SegmentsValid b.segments) (vb' : SegmentsValid b'.segments)
    (ha : a.Rewritten a') (hb : b.Rewritten b') :
    planar.segmentInMultisegment a b context = planar.segmentInMultisegment a' b' context := by
  have va' := rewritten_nondegenerate ha va
  have key : ∀ {t : Segment K} {l : List (Segment K)}, SegmentsValid l → SameUpTo Segment.Rewritten [t] l →
      l.length ≤ 1 := by
    intro t l hl h
    rcases l with - | ⟨u, - | ⟨v, l⟩⟩
    · simp
    · simp
    · obtain ⟨x, hx, hu⟩ := h.2 u (by simp)
      obtain ⟨y, hy, hv⟩ := h.2 v (by simp)
      rw [List.mem_singleton] at hx hy
      subst hx; subst hy
      have k := List.rel_of_pairwise_cons hl.2 (List.mem_cons_self (a := v) (l := l))
      rw [← rewritten_pts hu, ← rewritten_pts hv, Set.inter_self] at k
      exact absurd (k y.start_mem y.finish_mem) (fun e => hl.1 u (by simp) (by
        rcases hu with rfl | rfl
        · exact e
        · exact e.symm))
  have symm : ∀ {l m : List (Segment K)}, SameUpTo Segment.Rewritten l m → SameUpTo Segment.Rewritten m l := by
    have s : ∀ u v : Segment K, u.Rewritten v → v.Rewritten u := by
      rintro u v (rfl | rfl)
      · exact .inl rfl
      · exact .inr rfl
    intro l m h
    refine ⟨fun x hx => ?_, fun x hx => ?_⟩
    · obtain ⟨y, hy, k⟩ := h.2 x hx
      exact ⟨y, hy, s _ _ k⟩
    · obtain ⟨y, hy, k⟩ := h.1 x hx
      exact ⟨y, hy, s _ _ k⟩
  obtain ⟨l⟩ := b
  obtain ⟨l'⟩ := b'
  have hb : SameUpTo Segment.Rewritten l l' := hb
  have nil := sameUpTo_nil hb
  rcases l with - | ⟨t, - | ⟨u, l⟩⟩
  · rw [nil.mp rfl]
    rfl
  · have hl := key vb' hb
    rcases l' with - | ⟨t', - | ⟨u', l'⟩⟩
    · exact absurd (nil.mpr rfl) (by simp)
    · obtain ⟨x, hx, ht⟩ := hb.1 t (by simp)
      rw [List.mem_singleton] at hx
      subst hx
      refine ((C05_single hc va' (rewritten_nondegenerate ht (vb.1 t (by simp))) _).mpr ?_).symm
      rw [← rewritten_pts ht]
      have h := (C05_single hc va (vb.1 t (by simp)) _).mp rfl
      rcases ha with rfl | rfl
      · exact h
      · rwa [linearRel_reverse, Segment.pts_reverse]
    · simp at hl
  · have h2 : 2 ≤ l'.length := by
      rcases l' with - | ⟨t', - | ⟨u', l'⟩⟩
      · exact absurd (nil.mpr rfl) (by simp)
      · have := key vb (symm hb)
        simp at this
      · simp
    exact C52_segment_in_multisegment hc va va' vb vb' (by simp) h2
      ((sameSegment_iff hc).mpr (rewritten_pts ha)) ((sameMultisegment_iff hc).mpr (rewritten_segsPts hb))

/-- C79: `segment_in_contour`. -/
theorem C79_segment_in_contour {a a' : Segment K} {b b' : Contour K} (va : a.Nondegenerate) (vb : b.Simple)
    (ha : a.Rewritten a') (hb : b.SameCycle b') :
    planar.segmentInContour a b context = planar.segmentInContour a' b' context :=
  (C09_representation hc va ha vb (Contour.SameCycle.symm hb)).symm

/-- C79: `multisegment_in_contour`. -/
theorem C79_multisegment_in_contour {a a' : Multisegment K} {b b' : Contour K} (na : a.segments ≠ [])
    (va : SegmentsValid a.segments) (va' : SegmentsValid a'.segments) (vb : b.Simple) (ha : a.Rewritten a')
    (hb : b.SameCycle b') :
    planar.multisegmentInContour a b context = planar.multisegmentInContour a' b' context :=
  C52_multisegment_in_contour hc na (fun h => na ((sameUpTo_nil ha).mpr h)) va va' vb
    (vb.of_sameCycle (Contour.SameCycle.symm hb)) ((sameMultisegment_iff hc).mpr (rewritten_segsPts ha))
    ((sameContour_iff hc).mpr (Contour.SameCycle.pts hb))

/-- C79: `contour_in_contour`. -/
theorem C79_contour_in_contour {a a' b b' : Contour K} (va : a.Simple) (vb : b.Simple) (ha : a.SameCycle a')
    (hb : b.SameCycle b') :
    planar.contourInContour a b context = planar.contourInContour a' b' context := by
  have va' := va.of_sameCycle (Contour.SameCycle.symm ha)
  have vb' := vb.of_sameCycle (Contour.SameCycle.symm hb)
  have k := C36_cross_touch hc va vb
  have k' := C36_cross_touch hc va' vb'
  simp only [← Contour.SameCycle.pts ha, ← Contour.SameCycle.pts hb, ← ha.mem_vertices, ← hb.mem_vertices] at k'
  rw [← k.1, ← k.2] at k'
  obtain ⟨r, hr, h⟩ := C36_contour_in_contour_partial hc va vb
  obtain ⟨r', hr', h'⟩ := C36_contour_in_contour_partial hc va' vb'
  rw [hr, hr'] at k' ⊢
  by_cases e1 : r = .cross
  · subst e1; simpa using (k'.1.mpr rfl).symm
  by_cases e2 : r = .touch
  · subst e2; simpa using (k'.2.mpr rfl).symm
  have e3 : r' ≠ .touch := fun e => by subst e; simp at k'; exact e2 k'.2
  have h := h.resolve_right fun h => e2 h.1
  have h' := h'.resolve_right fun h => e3 h.1
  have e : ContoursRel a b r' := by
    revert h'
    cases r' <;> simp only [ContoursRel, Contour.SameCycle.pts ha, Contour.SameCycle.pts hb, hb.interior,
      sameCycle_exterior hb, imp_self]
  rw [ContoursRel.unique va h e]

/-- C79: `contour_in_region`. -/
theorem C79_contour_in_region {a a' : Contour K} {b b' : Region K} (va : a.Simple) (vb : Contour.Simple b)
    (ha : a.SameCycle a') (hb : Contour.SameCycle b b') :
    planar.contourInRegion a b context = planar.contourInRegion a' b' context :=
  C52_contour_in_region hc va (va.of_sameCycle (Contour.SameCycle.symm ha)) vb
    (vb.of_sameCycle (Contour.SameCycle.symm hb)) ((sameContour_iff hc).mpr (Contour.SameCycle.pts ha))
    ((sameRegion_iff hc).mpr (sameCycle_exterior hb))

/-- C79: `multisegment_in_region`. -/
theorem C79_multisegment_in_region {a a' : Multisegment K} {b b' : Region K} (na : a.segments ≠ [])
    (va : SegmentsValid a.segments) (va' : SegmentsValid a'.segments) (vb : Contour.Simple b)
    (ha : a.Rewritten a') (hb : Contour.SameCycle b b') :
    planar.multisegmentInRegion a b context = planar.multisegmentInRegion a' b' context := by
  refine answers_eq (C73_multisegment_in_region hc na va vb) (C73_multisegment_in_region hc
    (fun h => na ((sameUpTo_nil ha).mpr h)) va' (vb.of_sameCycle (Contour.SameCycle.symm hb))) fun q => ?_
  rw [rewritten_edgesCross (sameCycle_sameUpTo hb) ha, rewritten_segsPts ha, Contour.SameCycle.pts hb, hb.interior,
    sameCycle_exterior hb]

/-- C79: `multisegment_in_polygon`. -/
theorem C79_multisegment_in_polygon {a a' : Multisegment K} {b b' : Polygon K} (na : a.segments ≠ [])
    (va : SegmentsValid a.segments) (va' : SegmentsValid a'.segments) (vb : b.Valid) (vb' : b'.Valid)
    (ha : a.Rewritten a') (hb : b.Rewritten b') :
    planar.multisegmentInPolygon a b context = planar.multisegmentInPolygon a' b' context := by
  obtain ⟨h1, h2, h3, h4⟩ := rewritten_polygon hb
  refine answers_eq (C73_multisegment_in_polygon hc na va vb) (C73_multisegment_in_polygon hc
    (fun h => na ((sameUpTo_nil ha).mpr h)) va' vb') fun q => ?_
  rw [rewritten_edgesCross h4 ha, rewritten_segsPts ha, h1, h2, h3]

/-- C79: `segment_in_multiregion`. -/
theorem C79_segment_in_multiregion {a a' : Segment K} {b b' : Multiregion K} (va : a.Nondegenerate)
    (vb : Multiregion.Valid b) (vb' : Multiregion.Valid b') (ha : a.Rewritten a')
    (hb : Multiregion.Rewritten b b') :
    planar.segmentInMultiregion a b context = planar.segmentInMultiregion a' b' context := by
  obtain ⟨h1, h2, h3, h4⟩ := rewritten_multiregion hb
  refine answers_eq (C73_segment_in_multiregion hc va vb) (C73_segment_in_multiregion hc
    (rewritten_nondegenerate ha va) vb') fun q => ?_
  rw [rewritten_edgesCross h4 (T' := [a']) (by constructor <;> simpa using ha), rewritten_pts ha, h1, h2, h3]

/-- C79: `segment_in_multipolygon`. -/
theorem C79_segment_in_multipolygon {a a' : Segment K} {b b' : Multipolygon K} (va : a.Nondegenerate)
    (vb : b.Valid) (vb' : b'.Valid) (ha : a.Rewritten a') (hb : b.Rewritten b') :
    planar.segmentInMultipolygon a b context = planar.segmentInMultipolygon a' b' context := by
  obtain ⟨h1, h2, h3, h4⟩ := rewritten_multipolygon hb
  refine answers_eq (C73_segment_in_multipolygon hc va vb) (C73_segment_in_multipolygon hc
    (rewritten_nondegenerate ha va) vb') fun q => ?_
  rw [rewritten_edgesCross h4 (T' := [a']) (by constructor <;> simpa using ha), rewritten_pts ha, h1, h2, h3]

/-- C79: `contour_in_multiregion`. -/
theorem C79_contour_in_multiregion {a a' : Contour K} {b b' : Multiregion K} (va : a.Simple)
    (vb : Multiregion.Valid b) (vb' : Multiregion.Valid b') (ha : a.SameCycle a')
    (hb : Multiregion.Rewritten b b') :
    planar.contourInMultiregion a b context = planar.contourInMultiregion a' b' context := by
  obtain ⟨h1, h2, h3, h4⟩ := rewritten_multiregion hb
  refine answers_eq (C73_contour_in_multiregion hc va vb) (C73_contour_in_multiregion hc
    (va.of_sameCycle (Contour.SameCycle.symm ha)) vb') fun q => ?_
  rw [rewritten_edgesCross h4 (sameCycle_sameUpTo ha), Contour.SameCycle.pts ha, h1, h2, h3]

/-- C79: `contour_in_multipolygon`. -/
theorem C79_contour_in_multipolygon {a a' : Contour K} {b b' : Multipolygon K} (va : a.Simple)
    (vb : b.Valid) (vb' : b'.Valid) (ha : a.SameCycle a') (hb : b.Rewritten b') :
    planar.contourInMultipolygon a b context = planar.contourInMultipolygon a' b' context := by
  obtain ⟨h1, h2, h3, h4⟩ := rewritten_multipolygon hb
  refine answers_eq (C73_contour_in_multipolygon hc va vb) (C73_contour_in_multipolygon hc
    (va.of_sameCycle (Contour.SameCycle.symm ha)) vb') fun q => ?_
  rw [rewritten_edgesCross h4 (sameCycle_sameUpTo ha), Contour.SameCycle.pts ha, h1, h2, h3]

/-- C79: `contour_in_polygon`. -/
theorem C79_contour_in_polygon {a a' : Contour K} {b b' : Polygon K} (va : a.Simple) (vb : b.Valid)
    (vb' : b'.Valid) (ha : a.SameCycle a') (hb : b.Rewritten b') :
    planar.contourInPolygon a b context = planar.contourInPolygon a' b' context := by
  obtain ⟨h1, h2, h3, -⟩ := rewritten_polygon hb
  obtain ⟨k1, k2, k3, k4⟩ := rewritten_multiregion hb.2
  refine answers_eq (C74_contour_in_polygon hc va vb) (C74_contour_in_polygon hc
    (va.of_sameCycle (Contour.SameCycle.symm ha)) vb') fun q => ?_
  rw [rewritten_edgesCross k4 (sameCycle_sameUpTo ha), Contour.SameCycle.pts ha, Contour.SameCycle.pts hb.1,
    hb.1.interior, sameCycle_exterior hb.1, h1, h2, h3, k1, k2, k3]

/-- C79: `multisegment_in_multiregion`. -/
theorem C79_multisegment_in_multiregion {a a' : Multisegment K} {b b' : Multiregion K} (na : a.segments ≠ [])
    (va : SegmentsValid a.segments) (va' : SegmentsValid a'.segments) (vb : Multiregion.Valid b)
    (vb' : Multiregion.Valid b') (ha : a.Rewritten a') (hb : Multiregion.Rewritten b b') :
    planar.multisegmentInMultiregion a b context = planar.multisegmentInMultiregion a' b' context := by
  obtain ⟨h1, h2, h3, h4⟩ := rewritten_multiregion hb
  refine answers_eq (C73_multisegment_in_multiregion hc na va vb) (C73_multisegment_in_multiregion hc
    (fun h => na ((sameUpTo_nil ha).mpr h)) va' vb') fun q => ?_
  rw [rewritten_edgesCross h4 ha, rewritten_segsPts ha, h1, h2, h3, sameUpTo_forall hb fun c d r => by
    rw [r.interior, Contour.SameCycle.pts r]]

/-- C79: `multisegment_in_multipolygon`. -/
theorem C79_multisegment_in_multipolygon {a a' : Multisegment K} {b b' : Multipolygon K} (na : a.segments ≠ [])
    (va : SegmentsValid a.segments) (va' : SegmentsValid a'.segments) (vb : b.Valid) (vb' : b'.Valid)
    (ha : a.Rewritten a') (hb : b.Rewritten b') :
    planar.multisegmentInMultipolygon a b context = planar.multisegmentInMultipolygon a' b' context := by
  obtain ⟨h1, h2, h3, h4⟩ := rewritten_multipolygon hb
  refine answers_eq (C73_multisegment_in_multipolygon hc na va vb) (C73_multisegment_in_multipolygon hc
    (fun h => na ((sameUpTo_nil ha).mpr h)) va' vb') fun q => ?_
  rw [rewritten_edgesCross h4 ha, rewritten_segsPts ha, h1, h2, h3, sameUpTo_forall hb fun c d r => by
    rw [(rewritten_polygon r).1, (rewritten_polygon r).2.1]]

/-! ### Areas -/

/-- C79: `region_in_region`. -/
theorem C79_region_in_region {a a' b b' : Region K} (va : Contour.Simple a) (vb : Contour.Simple b)
    (ha : Contour.SameCycle a a') (hb : Contour.SameCycle b b') :
    planar.regionInRegion a b context = planar.regionInRegion a' b' context :=
  C52_region_in_region hc va (va.of_sameCycle (Contour.SameCycle.symm ha)) vb
    (vb.of_sameCycle (Contour.SameCycle.symm hb)) ((sameRegion_iff hc).mpr (sameCycle_exterior ha))
    ((sameRegion_iff hc).mpr (sameCycle_exterior hb))

/-- C79: `region_in_multiregion`. -/
theorem C79_region_in_multiregion {a a' : Region K} {b b' : Multiregion K} (va : Contour.Simple a)
    (vb : Multiregion.Valid b) (vb' : Multiregion.Valid b') (nb : b ≠ []) (ha : Contour.SameCycle a a')
    (hb : Multiregion.Rewritten b b') :
    planar.regionInMultiregion a b context = planar.regionInMultiregion a' b' context :=
  C52_region_in_multiregion hc va (va.of_sameCycle (Contour.SameCycle.symm ha)) vb vb' nb
    (fun h => nb ((sameUpTo_nil hb).mpr h)) ((sameRegion_iff hc).mpr (sameCycle_exterior ha))
    ((sameMultiregion_iff hc vb vb').mpr (rewritten_multiregion hb).2.2.1)

/-- C79: `multiregion_in_multiregion`. -/
theorem C79_multiregion_in_multiregion {a a' b b' : Multiregion K} (va : Multiregion.Valid a)
    (va' : Multiregion.Valid a') (vb : Multiregion.Valid b) (vb' : Multiregion.Valid b') (na : a ≠ []) (nb : b ≠ [])
    (ha : Multiregion.Rewritten a a') (hb : Multiregion.Rewritten b b') :
    planar.multiregionInMultiregion a b context = planar.multiregionInMultiregion a' b' context :=
  C52_multiregion_in_multiregion hc va va' vb vb' na (fun h => na ((sameUpTo_nil ha).mpr h)) nb
    (fun h => nb ((sameUpTo_nil hb).mpr h)) ((sameMultiregion_iff hc va va').mpr (rewritten_multiregion ha).2.2.1)
    ((sameMultiregion_iff hc vb vb').mpr (rewritten_multiregion hb).2.2.1)

/-- C79: `region_in_polygon`. -/
theorem C79_region_in_polygon {a a' : Region K} {b b' : Polygon K} (va : Contour.Simple a) (vb : b.Valid)
    (vb' : b'.Valid) (ha : Contour.SameCycle a a') (hb : b.Rewritten b') :
    planar.regionInPolygon a b context = planar.regionInPolygon a' b' context := by
  obtain ⟨h1, h2, h3, -⟩ := rewritten_polygon hb
  refine answers_eq (C74_region_in_polygon hc va vb) (C74_region_in_polygon hc
    (va.of_sameCycle (Contour.SameCycle.symm ha)) vb') fun q => ?_
  rw [Contour.SameCycle.pts ha, ha.interior, sameCycle_exterior ha, h1, h2, h3]

/-- C79: `region_in_multipolygon`. -/
theorem C79_region_in_multipolygon {a a' : Region K} {b b' : Multipolygon K} (va : Contour.Simple a)
    (vb : b.Valid) (vb' : b'.Valid) (nb : b.polygons ≠ []) (ha : Contour.SameCycle a a') (hb : b.Rewritten b') :
    planar.regionInMultipolygon a b context = planar.regionInMultipolygon a' b' context :=
  C52_region_in_multipolygon hc va (va.of_sameCycle (Contour.SameCycle.symm ha)) vb vb' nb
    (fun h => nb ((sameUpTo_nil hb).mpr h)) ((sameRegion_iff hc).mpr (sameCycle_exterior ha))
    ((sameMultipolygon_iff hc vb vb').mpr (rewritten_multipolygon hb).2.2.1)

/-- C79: `multiregion_in_polygon`. -/
theorem C79_multiregion_in_polygon {a a' : Multiregion K} {b b' : Polygon K} (va : Multiregion.Valid a)
    (va' : Multiregion.Valid a') (na : a ≠ []) (vb : b.Valid) (vb' : b'.Valid) (ha : Multiregion.Rewritten a a')
    (hb : b.Rewritten b') :
    planar.multiregionInPolygon a b context = planar.multiregionInPolygon a' b' context := by
  obtain ⟨h1, h2, h3, -⟩ := rewritten_polygon hb
  obtain ⟨k1, k2, k3, -⟩ := rewritten_multiregion ha
  obtain ⟨r, hr, -⟩ := C72_multiregion_relation va na vb
  have hr' : MultiregionRel a' b' r := by
    unfold MultiregionRel at hr ⊢
    rwa [← h1, ← h2, ← h3, ← k1, ← k2, ← k3]
  obtain ⟨s, hs, u1, u2⟩ := C76_multiregion_in_polygon hc va na vb hr
  obtain ⟨s', hs', u1', u2'⟩ := C76_multiregion_in_polygon hc va' (fun h => na ((sameUpTo_nil ha).mpr h)) vb' hr'
  have e := sameUpTo_nil hb.2
  rw [hs, hs']
  by_cases hh : b.holes = []
  · rw [u1 hh, u1' (e.mp hh)]
  · refine (congrArg _ ((u2 hh s').mp ?_)).symm
    have h := (u2' (fun k => hh (e.mpr k)) s').mpr rfl
    have x : (∃ c ∈ a, b.border.interior ⊆ Contour.interior c) ↔
        ∃ c ∈ a', b'.border.interior ⊆ Contour.interior c :=
      sameUpTo_exists ha fun c d r => by rw [r.interior, hb.1.interior]
    cases r <;> simpa only [MultiregionAnswer, x] using h

/-- C79: `polygon_in_polygon`. -/
theorem C79_polygon_in_polygon {a a' b b' : Polygon K} (va : a.Valid) (va' : a'.Valid) (vb : b.Valid)
    (vb' : b'.Valid) (ha : a.Rewritten a') (hb : b.Rewritten b') :
    planar.polygonInPolygon a b context = planar.polygonInPolygon a' b' context := by
  obtain ⟨h1, h2, h3, -⟩ := rewritten_polygon hb
  obtain ⟨k1, k2, k3, -⟩ := rewritten_polygon ha
  obtain ⟨r, hr, -⟩ := C72_polygon_relation va vb
  have hr' : PolygonRel a' b' r := by
    unfold PolygonRel at hr ⊢
    rwa [← h1, ← h2, ← h3, ← k1, ← k2, ← k3]
  refine answers_eq (C76_polygon_in_polygon hc va vb hr) (C76_polygon_in_polygon hc va' vb' hr') fun q => ?_
  cases r <;> simp only [PolygonAnswer, rewritten_entangled ha hb, rewritten_looksWithin ha hb,
    rewritten_looksWithin hb ha]

/-- C79: `polygon_in_multipolygon`. -/
theorem C79_polygon_in_multipolygon {a a' : Polygon K} {b b' : Multipolygon K} (va : a.Valid) (va' : a'.Valid)
    (vb : b.Valid) (vb' : b'.Valid) (nb : b.polygons ≠ []) (ha : a.Rewritten a') (hb : b.Rewritten b') :
    planar.polygonInMultipolygon a b context = planar.polygonInMultipolygon a' b' context := by
  obtain ⟨h1, h2, h3, h4⟩ := rewritten_multipolygon hb
  obtain ⟨k1, k2, k3, k4⟩ := rewritten_polygon ha
  refine answers_eq (C73_polygon_in_multipolygon hc va vb nb) (C73_polygon_in_multipolygon hc va' vb'
    (fun h => nb ((sameUpTo_nil hb).mpr h))) fun q => ?_
  rw [rewritten_edgesCross h4 k4, h1, h2, h3, k1, k2, k3]

/-- C79: `multiregion_in_multipolygon`. -/
theorem C79_multiregion_in_multipolygon {a a' : Multiregion K} {b b' : Multipolygon K} (va : Multiregion.Valid a)
    (va' : Multiregion.Valid a') (vb : b.Valid) (vb' : b'.Valid) (na : a ≠ []) (nb : b.polygons ≠ [])
    (ha : Multiregion.Rewritten a a') (hb : b.Rewritten b') :
    planar.multiregionInMultipolygon a b context = planar.multiregionInMultipolygon a' b' context := by
  obtain ⟨h1, h2, h3, h4⟩ := rewritten_multipolygon hb
  obtain ⟨k1, k2, k3, k4⟩ := rewritten_multiregion ha
  refine answers_eq (C73_multiregion_in_multipolygon hc va vb na nb) (C73_multiregion_in_multipolygon hc va' vb'
    (fun h => na ((sameUpTo_nil ha).mpr h)) (fun h => nb ((sameUpTo_nil hb).mpr h))) fun q => ?_
  rw [rewritten_edgesCross h4 k4, h1, h2, h3, k1, k2, k3]

/-- C79: `multipolygon_in_multipolygon`. -/
theorem C79_multipolygon_in_multipolygon {a a' b b' : Multipolygon K} (va : a.Valid) (va' : a'.Valid)
    (vb : b.Valid) (vb' : b'.Valid) (na : a.polygons ≠ []) (nb : b.polygons ≠ []) (ha : a.Rewritten a')
    (hb : b.Rewritten b') :
    planar.multipolygonInMultipolygon a b context = planar.multipolygonInMultipolygon a' b' context := by
  obtain ⟨h1, h2, h3, h4⟩ := rewritten_multipolygon hb
  obtain ⟨k1, k2, k3, k4⟩ := rewritten_multipolygon ha
  refine answers_eq (C73_multipolygon_in_multipolygon hc va vb na nb) (C73_multipolygon_in_multipolygon hc va' vb'
    (fun h => na ((sameUpTo_nil ha).mpr h)) (fun h => nb ((sameUpTo_nil hb).mpr h))) fun q => ?_
  rw [rewritten_edgesCross h4 k4, h1, h2, h3, k1, k2, k3]

end

/-! ### Examples -/

/-- C79: the answers of `segment_in_region` and `segment_in_polygon` depend on the direction of the segment. -/
theorem C79_counterexample_direction :
    let c : Contour ℚ := ⟨[⟨0, 0⟩, ⟨4, 0⟩, ⟨4, 2⟩, ⟨2, 2⟩, ⟨2, 4⟩, ⟨0, 4⟩]⟩
    let s : Segment ℚ := ⟨⟨1, 2⟩, ⟨5, 2⟩⟩
    c.Simple ∧ (⟨c, []⟩ : Polygon ℚ).Valid ∧ s.Nondegenerate ∧
      planar.segmentInRegion s c reference.context = .ok .enclosed ∧
      planar.segmentInRegion s.reverse c reference.context = .ok .touch ∧
      planar.segmentInPolygon s ⟨c, []⟩ reference.context = .ok .enclosed ∧
      planar.segmentInPolygon s.reverse ⟨c, []⟩ reference.context = .ok .touch :=
  ⟨Contour.simple_of_check (by decide +kernel), Polygon.valid_of_check (by decide +kernel),
    by unfold Segment.Nondegenerate; decide +kernel, by decide +kernel, by decide +kernel, by decide +kernel,
    by decide +kernel⟩

/-- C79: the answer of `segment_in_region` depends on the orientation of the contour. -/
theorem C79_counterexample_orientation :
    let c : Contour ℚ := ⟨[⟨3, 0⟩, ⟨1, 0⟩, ⟨1, 3⟩, ⟨4, 4⟩, ⟨3, 1⟩]⟩
    let s : Segment ℚ := ⟨⟨3, 0⟩, ⟨1, 2⟩⟩
    c.Simple ∧ s.Nondegenerate ∧
      planar.segmentInRegion s c reference.context = .ok .touch ∧
      planar.segmentInRegion s ⟨c.vertices.reverse⟩ reference.context = .ok .enclosed :=
  ⟨Contour.simple_of_check (by decide +kernel),
    by unfold Segment.Nondegenerate; decide +kernel, by decide +kernel, by decide +kernel⟩

/-- C79: the polygons of C72, the second one with the holes exchanged and the border reversed. -/
theorem C79_example :
    planar.polygonInPolygon pinched ⟨⟨pinching.border.vertices.reverse⟩, pinching.holes.reverse⟩
      (reference.context : Context ℚ) = .ok .overlap := by
  rw [← C79_polygon_in_polygon reference.context_exact pinched_valid.1 pinched_valid.1 pinched_valid.2.1
    (Polygon.valid_of_check (by decide +kernel)) (a := pinched) (b := pinching)]
  · exact C72_counterexample_touch.2.2.1
  · exact ⟨Contour.SameCycle.refl _, fun c hc => ⟨c, hc, Contour.SameCycle.refl _⟩,
      fun c hc => ⟨c, hc, Contour.SameCycle.refl _⟩⟩
  · exact ⟨⟨0, .inr (by simp)⟩, fun c hc => ⟨c, List.mem_reverse.mpr hc, Contour.SameCycle.refl _⟩,
      fun c hc => ⟨c, List.mem_reverse.mp hc, Contour.SameCycle.refl _⟩⟩

end Orient.Props
