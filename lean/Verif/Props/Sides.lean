import Verif.Spec.Sides
import Verif.Props.Carve
import Verif.Props.Trust
import Verif.Props.Stable

/-! C95: linear geometries which do not meet the boundary of an areal geometry. -/

set_option linter.unusedSectionVars false

namespace Orient.Props

variable {K : Type} [Field K] [LinearOrder K]

/-- Points of a linear geometry, at least one of them on each connected part written down in it: on the segment, on
each segment of the multisegment, on the contour. -/
def Line.Sampled : Line K → List (Point K) → Prop
  | .segment s, l => l ≠ [] ∧ ∀ p ∈ l, p ∈ s.pts
  | .multisegment m, l => (∀ p ∈ l, ∃ s ∈ m.segments, p ∈ s.pts) ∧ ∀ s ∈ m.segments, ∃ p ∈ l, p ∈ s.pts
  | .contour c, l => l ≠ [] ∧ ∀ p ∈ l, p ∈ c.pts

variable [IsStrictOrderedRing K]

open Segment

section

variable {context : Context K} (hc : context.Exact)
include hc

/-- A path off the boundary of an areal geometry does not lead from its inside to its outside. -/
theorem area_path {u : Area K} (vu : u.Valid) {S : Set (Point K)} (h : ∀ p, u.locate context p = .boundary → p ∈ S)
    {p q : Point K} (k : Joined S p q) (kp : u.locate context p = .interior) : u.locate context q ≠ .exterior := by
  have mono : ∀ {T : Set (Point K)}, T ⊆ S → Joined T p q := by
    intro T hT
    clear kp
    induction k with
    | refl => exact .refl
    | step _ k2 ih => exact .step ih fun z hz hz' => k2 z hz (hT hz')
  have key : ∀ {c : Contour K}, (∀ x ∈ c.pts, u.locate context x = .boundary) → (p ∈ c.interior ↔ q ∈ c.interior) :=
    fun k => Contour.interior_iff_of_joined (mono fun x hx => h x (k x hx))
  intro kq
  have poly : ∀ {g : Polygon K}, (∀ x ∈ g.pts, u.locate context x = .boundary) → p ∈ g.interior → q ∈ g.exterior → False := by
    rintro g k ⟨p1, p2⟩ (k' | ⟨d, hd, k'⟩)
    · exact Contour.not_both ((key fun x hx => k x (.inl hx)).mp p1) k'
    · exact Contour.not_both ((key fun x hx => k x (.inr ⟨d, hd, hx⟩)).mpr k') (p2 d hd)
  rcases u with a | a | a | a <;> simp only [Area.Valid] at vu
  · obtain ⟨a1, a2, a3⟩ := region_located hc vu
    exact Contour.not_both ((key fun x hx => (a2 x).mpr hx).mp ((a1 p).mp kp)) ((a3 q).mp kq)
  · obtain ⟨a1, a2, a3⟩ := multiregion_located hc vu.1
    obtain ⟨d, hd, k⟩ := (a1 p).mp kp
    exact Contour.not_both ((key fun x hx => (a2 x).mpr ⟨d, hd, hx⟩).mp k) ((a3 q).mp kq d hd)
  · obtain ⟨a1, a2, a3⟩ := polygon_located hc vu
    exact poly (fun x hx => (a2 x).mpr hx) ((a1 p).mp kp) ((a3 q).mp kq)
  · obtain ⟨a1, a2, a3⟩ := multipolygon_located hc vu.1
    obtain ⟨g, hg, k⟩ := (a1 p).mp kp
    exact poly (fun x hx => (a2 x).mpr ⟨g, hg, hx⟩) k ((a3 q).mp kq g hg)

/-- Points joined off the boundary have the same location. -/
theorem area_path_eq {u : Area K} (vu : u.Valid) {S : Set (Point K)} (h : ∀ p, u.locate context p = .boundary → p ∈ S)
    {p q : Point K} (k : Joined S p q) (hp : p ∉ S) (hq : q ∉ S) : u.locate context p = u.locate context q := by
  have k1 := area_path hc vu h k
  have k2 := area_path hc vu h k.symm
  have h1 : u.locate context p ≠ .boundary := fun e => hp (h p e)
  have h2 : u.locate context q ≠ .boundary := fun e => hq (h q e)
  revert k1 k2 h1 h2
  cases u.locate context p <;> cases u.locate context q <;> simp

/-- What is answered if the linear geometry is in the exterior and if it is in the interior. -/
theorem line_trust {a : Line K} {u : Area K} (va : a.Valid) (vu : u.Valid) : ∃ r, a.relate context u = .ok r ∧
    ((∀ p, a.locate context p = .boundary → u.locate context p = .exterior) → r = .disjoint) ∧
    ((∀ p, a.locate context p = .boundary → u.locate context p = .interior) → r = .within) := by
  have key : ∀ {x : Py Relation}, (∃ r, x = .ok r ∧ (r = .disjoint ↔ NoCommon (a.locate context) (u.locate context)) ∧
      (r = .within ↔ InsideOf (a.locate context) (u.locate context))) → ∃ r, x = .ok r ∧
    ((∀ p, a.locate context p = .boundary → u.locate context p = .exterior) → r = .disjoint) ∧
    ((∀ p, a.locate context p = .boundary → u.locate context p = .interior) → r = .within) := by
    rintro x ⟨r, hr, h1, h2⟩
    have bd : ∀ p, a.locate context p ≠ .exterior → a.locate context p = .boundary := fun p hp => by
      have := line_not_interior (context := context) a p
      revert this hp
      cases a.locate context p <;> simp
    refine ⟨r, hr, fun k => h1.mpr fun p => ?_, fun k => h2.mpr fun p hp => k p (bd p hp)⟩
    by_cases hp : a.locate context p = .exterior
    · exact .inl hp
    · exact .inr (k p (bd p hp))
  refine key ?_
  rcases a with a | a | a <;> rcases u with u | u | u | u <;> simp only [Line.Valid, Area.Valid] at va vu
  · exact C82_segment_in_region hc va vu
  · obtain ⟨r, hr, k, -⟩ := C82_segment_in_multiregion hc va vu.1
    exact ⟨r, hr, k.disjoint, k.within⟩
  · exact C82_segment_in_polygon hc va vu
  · obtain ⟨r, hr, k⟩ := C82_segment_in_multipolygon hc va vu.1
    exact ⟨r, hr, k.disjoint, k.within⟩
  · obtain ⟨r, hr, k, -⟩ := C82_multisegment_in_region hc va.1 va.2 vu
    exact ⟨r, hr, k.disjoint, k.within⟩
  · obtain ⟨r, hr, k⟩ := C82_multisegment_in_multiregion hc va.1 va.2 vu.1
    exact ⟨r, hr, k.disjoint, k.within⟩
  · obtain ⟨r, hr, k, -⟩ := C82_multisegment_in_polygon hc va.1 va.2 vu
    exact ⟨r, hr, k.disjoint, k.within⟩
  · obtain ⟨r, hr, k⟩ := C82_multisegment_in_multipolygon hc va.1 va.2 vu.1
    exact ⟨r, hr, k.disjoint, k.within⟩
  · obtain ⟨r, hr, k, -⟩ := C82_contour_in_region hc va vu
    exact ⟨r, hr, k.disjoint, k.within⟩
  · obtain ⟨r, hr, k, -⟩ := C82_contour_in_multiregion hc va vu.1
    exact ⟨r, hr, k.disjoint, k.within⟩
  · obtain ⟨r, hr, k, -⟩ := C82_contour_in_polygon hc va vu
    exact ⟨r, hr, k.disjoint, k.within⟩
  · obtain ⟨r, hr, k⟩ := C82_contour_in_multipolygon hc va vu.1
    exact ⟨r, hr, k.disjoint, k.within⟩

omit hc in
theorem linearAnswer_cross {X Y : Prop} {S I B E : Set (Point K)} {r : Relation} (h : LinearAnswer X Y S I B E r)
    (hS : S ∩ B = ∅) (h1 : (S ∩ I).Nonempty) (h2 : (S ∩ E).Nonempty) (hie : I ∩ E = ∅) (hX : X → r = .cross)
    (hY : Y → (S ∩ B).Nonempty) : r = .cross := by
  by_cases x : X
  · exact hX x
  have k := h.2.2 x fun y => (hY y.1).ne_empty hS
  obtain ⟨p, p1, p2⟩ := h1
  obtain ⟨q, q1, q2⟩ := h2
  have ie := Set.eq_empty_iff_forall_notMem.mp hie
  have sb := Set.eq_empty_iff_forall_notMem.mp hS
  cases r with
  | cross => rfl
  | disjoint => exact absurd ⟨p2, k p1⟩ (ie p)
  | within => exact absurd ⟨k q1, q2⟩ (ie q)
  | component => exact absurd ⟨p1, k p1⟩ (sb p)
  | enclosed => exact absurd k.2.2 (by rw [hS]; exact Set.not_nonempty_empty)
  | touch => exact absurd k.2.2 (by rw [hS]; exact Set.not_nonempty_empty)
  | _ => exact k.elim

/-- A multisegment with points inside and outside of an areal geometry, but not on its boundary, is said to cross it. -/
theorem multisegment_cross {a : Multisegment K} {u : Area K} (va : (Line.multisegment a).Valid) (vu : u.Valid)
    (h : ∀ p ∈ segsPts a.segments, u.locate context p ≠ .boundary) {p q : Point K} (hp : p ∈ segsPts a.segments)
    (hq : q ∈ segsPts a.segments) (kp : u.locate context p = .interior) (kq : u.locate context q = .exterior) :
    (Line.multisegment a).relate context u = .ok .cross := by
  simp only [Line.Valid] at va
  rcases u with u | u | u | u <;> simp only [Area.Valid] at vu
  · obtain ⟨l1, l2, l3⟩ := region_located hc vu
    obtain ⟨r, hr, k⟩ := C73_multisegment_in_region hc (b := u) va.2 va.1 vu
    have k := (k r).mpr rfl
    have hS : segsPts a.segments ∩ u.pts = ∅ :=
      Set.eq_empty_iff_forall_notMem.mpr fun z hz => h z hz.1 ((l2 z).mpr hz.2)
    have := linearAnswer_cross k hS ⟨p, hp, (l1 p).mp kp⟩ ⟨q, hq, (l3 q).mp kq⟩
      (Set.eq_empty_iff_forall_notMem.mpr fun z hz => Contour.not_both hz.1 hz.2) k.1
      fun y => by
        obtain ⟨z, hz⟩ := vu.exists_mem
        exact ⟨z, y hz, hz⟩
    rw [this] at hr
    exact hr
  · obtain ⟨l1, l2, l3⟩ := multiregion_located hc vu.1
    obtain ⟨r, hr, k⟩ := C73_multisegment_in_multiregion hc va.2 va.1 vu.1
    have k := (k r).mpr rfl
    have hS : segsPts a.segments ∩ Multiregion.pts u = ∅ :=
      Set.eq_empty_iff_forall_notMem.mpr fun z hz => h z hz.1 ((l2 z).mpr hz.2)
    have := linearAnswer_cross k hS ⟨p, hp, (l1 p).mp kp⟩ ⟨q, hq, (l3 q).mp kq⟩
      (Set.eq_empty_iff_forall_notMem.mpr fun z hz => by
        have := (l1 z).mpr hz.1
        rw [(l3 z).mpr hz.2] at this
        simp at this) k.1
      fun y => by
        obtain ⟨c, hm, hi⟩ := (l1 p).mp kp
        have sub := y c hm fun b => by
          rcases b with b | b | b | b <;> exact absurd (b p hp p (.inl hi)) (lt_irrefl _)
        obtain ⟨z, hz⟩ := (vu.1.1 c hm).exists_mem
        exact ⟨z, sub hz, c, hm, hz⟩
    rw [this] at hr
    exact hr
  · obtain ⟨l1, l2, l3⟩ := polygon_located hc vu
    obtain ⟨r, hr, k⟩ := C73_multisegment_in_polygon hc va.2 va.1 vu
    have k := (k r).mpr rfl
    have hS : segsPts a.segments ∩ u.pts = ∅ :=
      Set.eq_empty_iff_forall_notMem.mpr fun z hz => h z hz.1 ((l2 z).mpr hz.2)
    have := linearAnswer_cross k hS ⟨p, hp, (l1 p).mp kp⟩ ⟨q, hq, (l3 q).mp kq⟩
      (Set.eq_empty_iff_forall_notMem.mpr fun z hz => by
        have := (l1 z).mpr hz.1
        rw [(l3 z).mpr hz.2] at this
        simp at this) k.1
      fun y => by
        obtain ⟨z, hz⟩ := vu.border.exists_mem
        exact ⟨z, y (.inl hz), .inl hz⟩
    rw [this] at hr
    exact hr
  · obtain ⟨l1, l2, l3⟩ := multipolygon_located hc vu.1
    obtain ⟨r, hr, k⟩ := C73_multisegment_in_multipolygon hc va.2 va.1 vu.1
    have k := (k r).mpr rfl
    have hS : segsPts a.segments ∩ u.pts = ∅ :=
      Set.eq_empty_iff_forall_notMem.mpr fun z hz => h z hz.1 ((l2 z).mpr hz.2)
    have := linearAnswer_cross k hS ⟨p, hp, (l1 p).mp kp⟩ ⟨q, hq, (l3 q).mp kq⟩
      (Set.eq_empty_iff_forall_notMem.mpr fun z hz => by
        have := (l1 z).mpr hz.1
        rw [(l3 z).mpr hz.2] at this
        simp at this) k.1
      fun y => by
        obtain ⟨g, hm, hi⟩ := (l1 p).mp kp
        have sub := y g hm fun b => by
          rcases b with b | b | b | b <;> exact absurd (b p hp p (.inl hi)) (lt_irrefl _)
        obtain ⟨z, hz⟩ := (vu.1.1 g hm).border.exists_mem
        exact ⟨z, sub (.inl hz), g, hm, .inl hz⟩
    rw [this] at hr
    exact hr

/-- C95: the relation of a linear geometry to an areal one whose boundary it does not meet is told by the locations of
points of it, one of each segment or one of the contour. -/
theorem C95_sides {a : Line K} {u : Area K} (va : a.Valid) (vu : u.Valid)
    (h : ∀ p, a.locate context p = .boundary → u.locate context p ≠ .boundary) {l : List (Point K)} (hl : Line.Sampled a l) :
    a.relate context u = .ok (Relation.ofSides (l.map (u.locate context))) := by
  have hS : ∀ p, u.locate context p = .boundary → p ∈ {z | u.locate context z = .boundary} := fun p hp => hp
  -- every point of the geometry has the location of a chosen point
  have same : ∀ p ∈ linePts a, ∃ q ∈ l, u.locate context p = u.locate context q := by
    intro p hp
    have off : ∀ z ∈ linePts a, z ∉ {z | u.locate context z = .boundary} := fun z hz => h z ((line_located hc a z).mpr hz)
    have seg : ∀ {s : Segment K}, s.pts ⊆ linePts a → p ∈ s.pts → ∀ {q}, q ∈ s.pts → u.locate context p = u.locate context q :=
      fun hs hp' q hq => area_path_eq hc vu hS (.single fun z hz => off z (hs (Segment.pts_subset hp' hq hz)))
        (off _ hp) (off _ (hs hq))
    rcases a with a | a | a <;> simp only [Line.Sampled] at hl
    · obtain ⟨q, hq⟩ := List.exists_mem_of_ne_nil _ hl.1
      exact ⟨q, hq, seg le_rfl hp (hl.2 q hq)⟩
    · obtain ⟨s, hs, hp'⟩ := hp
      obtain ⟨q, hq, hq'⟩ := hl.2 s hs
      exact ⟨q, hq, seg (s := s) (fun z hz => ⟨s, hs, hz⟩) hp' hq'⟩
    · obtain ⟨q, hq⟩ := List.exists_mem_of_ne_nil _ hl.1
      exact ⟨q, hq, area_path_eq hc vu hS (Contour.joined_of_disjoint (a := a)
        (Set.eq_empty_iff_forall_notMem.mpr fun z hz => off z hz.1 hz.2) hp (hl.2 q hq)) (off _ hp) (off _ (hl.2 q hq))⟩
  have on : ∀ q ∈ l, q ∈ linePts a := by
    intro q hq
    rcases a with a | a | a <;> simp only [Line.Sampled] at hl
    · exact hl.2 q hq
    · exact hl.1 q hq
    · exact hl.2 q hq
  obtain ⟨r, hr, h1, h2⟩ := line_trust hc va vu
  rw [hr]
  congr 1
  unfold Relation.ofSides
  simp only [List.mem_map, forall_exists_index, and_imp, forall_apply_eq_imp_iff₂]
  split_ifs with k1 k2
  · refine h2 fun p hp => ?_
    obtain ⟨q, hq, e⟩ := same p ((line_located hc a p).mp hp)
    rw [e, k1 q hq]
  · refine h1 fun p hp => ?_
    obtain ⟨q, hq, e⟩ := same p ((line_located hc a p).mp hp)
    rw [e, k2 q hq]
  · push Not at k1 k2
    obtain ⟨q, hq, n1⟩ := k1
    obtain ⟨p, hp, n2⟩ := k2
    have b : ∀ x ∈ l, u.locate context x ≠ .boundary := fun x hx => h x ((line_located hc a x).mpr (on x hx))
    have kq : u.locate context q = .exterior := by
      have := b q hq
      revert this n1
      cases u.locate context q <;> simp
    have kp : u.locate context p = .interior := by
      have := b p hp
      revert this n2
      cases u.locate context p <;> simp
    have off : ∀ z ∈ linePts a, z ∉ {z | u.locate context z = .boundary} := fun z hz => h z ((line_located hc a z).mpr hz)
    rcases a with a | a | a
    · have := area_path_eq hc vu hS (p := p) (q := q) (.single fun z hz => off z (Segment.pts_subset (on p hp) (on q hq) hz))
        (off _ (on p hp)) (off _ (on q hq))
      rw [kp, kq] at this
      simp at this
    · rw [multisegment_cross hc va vu (fun z hz => off z hz) (on p hp) (on q hq) kp kq] at hr
      exact (Except.ok.inj hr).symm
    · have := area_path_eq hc vu hS (Contour.joined_of_disjoint (a := a)
        (Set.eq_empty_iff_forall_notMem.mpr fun z hz => off z hz.1 hz.2) (on p hp) (on q hq)) (off _ (on p hp)) (off _ (on q hq))
      rw [kp, kq] at this
      simp at this

omit hc in
theorem area_contours_simple {u : Area K} (vu : u.Valid) : ∀ c ∈ u.contours, Contour.Simple c := by
  rcases u with u | u | u | u <;> simp only [Area.Valid] at vu <;> simp only [Area.contours]
  · intro c h
    obtain rfl := List.mem_singleton.mp h
    exact vu
  · exact vu.1.1
  · intro c h
    rcases List.mem_cons.mp h with rfl | h
    · exact vu.border
    · exact vu.holes.1 c h
  · intro c h
    obtain ⟨g, hg, h⟩ := List.mem_flatMap.mp h
    rcases List.mem_cons.mp h with rfl | h
    · exact (vu.1.1 g hg).border
    · exact (vu.1.1 g hg).holes.1 c h

/-- The boundary of an areal geometry consists of its contours. -/
theorem area_contours_boundary {u : Area K} (vu : u.Valid) {p : Point K} (h : u.locate context p = .boundary) :
    ∃ c ∈ u.contours, p ∈ c.pts := by
  have poly : ∀ {g : Polygon K}, p ∈ g.pts → ∃ c ∈ g.border :: g.holes, p ∈ c.pts := by
    rintro g (h | ⟨c, hm, h⟩)
    · exact ⟨_, List.mem_cons_self, h⟩
    · exact ⟨c, List.mem_cons_of_mem _ hm, h⟩
  rcases u with u | u | u | u <;> simp only [Area.Valid] at vu
  · exact ⟨u, List.mem_singleton.mpr rfl, ((region_located hc vu).boundary p).mp h⟩
  · exact ((multiregion_located hc vu.1).boundary p).mp h
  · exact poly (((polygon_located hc vu).boundary p).mp h)
  · obtain ⟨g, hg, k⟩ := ((multipolygon_located hc vu.1).boundary p).mp h
    obtain ⟨c, hm, k⟩ := poly k
    exact ⟨c, List.mem_flatMap.mpr ⟨g, hg, hm⟩, k⟩

/-- C95: the same if the functions say that the linear geometry is disjoint from each contour of the areal one. -/
theorem C95_contours {a : Line K} {u : Area K} (va : a.Valid) (vu : u.Valid)
    (h : ∀ c ∈ u.contours, a.relateLine context (.contour c) = .ok .disjoint) {l : List (Point K)}
    (hl : Line.Sampled a l) : a.relate context u = .ok (Relation.ofSides (l.map (u.locate context))) := by
  refine C95_sides hc va vu (fun p hp hb => ?_) hl
  obtain ⟨c, hm, k⟩ := area_contours_boundary hc vu hb
  have := lines_fact hc va (b := .contour c) (area_contours_simple vu c hm) (h c hm)
  exact Set.eq_empty_iff_forall_notMem.mp this p ⟨(line_located hc a p).mp hp, k⟩

/-- C95: a segment disjoint from a contour is inside or outside of the region in it as its first endpoint is. -/
theorem C95_segment {s : Segment K} {c : Contour K} (hs : s.Nondegenerate) (h : c.Simple)
    (hd : planar.segmentInContour s c context = .ok .disjoint) :
    planar.segmentInRegion s c context = .ok (Relation.ofSides [planar.pointInRegion s.start c context]) :=
  C95_contours hc (a := .segment s) (u := .region c) hs h (by simpa [Area.contours, Line.relateLine] using hd)
    (l := [s.start]) ⟨by simp, by simpa using Segment.start_mem s⟩

/-- C95: a multisegment disjoint from a contour. -/
theorem C95_multisegment {a : Multisegment K} {c : Contour K} (va : SegmentsValid a.segments) (na : a.segments ≠ [])
    (h : c.Simple) (hd : planar.multisegmentInContour a c context = .ok .disjoint) :
    planar.multisegmentInRegion a c context
      = .ok (Relation.ofSides (a.segments.map fun s => planar.pointInRegion s.start c context)) := by
  have := C95_contours hc (a := .multisegment a) (u := .region c) ⟨va, na⟩ h
    (by simpa [Area.contours, Line.relateLine] using hd) (l := a.segments.map Segment.start) ⟨fun p hp => by
      obtain ⟨s, hs, rfl⟩ := List.mem_map.mp hp
      exact ⟨s, hs, Segment.start_mem s⟩, fun s hs => ⟨_, List.mem_map.mpr ⟨s, hs, rfl⟩, Segment.start_mem s⟩⟩
  rw [List.map_map] at this
  exact this

/-- C95: a contour disjoint from the border and the holes of a polygon. -/
theorem C95_contour {a : Contour K} {g : Polygon K} (ha : a.Simple) (hg : g.Valid)
    (hd : ∀ c ∈ g.border :: g.holes, planar.contourInContour a c context = .ok .disjoint) {p : Point K} (hp : p ∈ a.pts) :
    planar.contourInPolygon a g context = .ok (Relation.ofSides [planar.pointInPolygon p g context]) :=
  C95_contours hc (a := .contour a) (u := .polygon g) ha hg hd (l := [p]) ⟨by simp, by simpa using hp⟩

end

/-- A multisegment with a segment outside of a polygon, one inside of it and one in its hole. -/
def sidesMultisegment : Multisegment ℚ := ⟨[⟨⟨9, 1⟩, ⟨9, 8⟩⟩, ⟨⟨2, 2⟩, ⟨7, 2⟩⟩, ⟨⟨4, 4⟩, ⟨5, 5⟩⟩]⟩

/-- The conditions can be met. -/
theorem C95_example : (Line.multisegment sidesMultisegment).Valid ∧ (Area.polygon carvedPolygon).Valid ∧
    (∀ c ∈ (Area.polygon carvedPolygon).contours,
      (Line.multisegment sidesMultisegment).relateLine (reference.context : Context ℚ) (.contour c) = .ok .disjoint) ∧
    Line.Sampled (.multisegment sidesMultisegment) [⟨9, 1⟩, ⟨2, 2⟩, ⟨5, 5⟩] ∧
    [(⟨9, 1⟩ : Point ℚ), ⟨2, 2⟩, ⟨5, 5⟩].map ((Area.polygon carvedPolygon).locate (reference.context : Context ℚ))
      = [.exterior, .interior, .exterior] ∧
    planar.multisegmentInPolygon sidesMultisegment carvedPolygon (reference.context : Context ℚ) = .ok .cross := by
  refine ⟨⟨segmentsValid_of_check (by decide +kernel), by simp [sidesMultisegment]⟩,
    Polygon.valid_of_check (by decide +kernel), ?_, ⟨?_, ?_⟩, by decide +kernel, by decide +kernel⟩
  · have : ∀ c ∈ carvedPolygon.border :: carvedPolygon.holes,
        planar.multisegmentInContour sidesMultisegment c (reference.context : Context ℚ) = .ok .disjoint := by decide +kernel
    exact this
  · simp only [List.mem_cons, List.not_mem_nil, or_false, forall_eq_or_imp, forall_eq]
    exact ⟨⟨_, List.mem_cons_self, Segment.start_mem _⟩,
      ⟨_, List.mem_cons_of_mem _ List.mem_cons_self, Segment.start_mem _⟩,
      ⟨_, List.mem_cons_of_mem _ (List.mem_cons_of_mem _ List.mem_cons_self), Segment.finish_mem _⟩⟩
  · simp only [sidesMultisegment, List.mem_cons, List.not_mem_nil, or_false, forall_eq_or_imp, forall_eq]
    exact ⟨⟨_, .inl rfl, Segment.start_mem _⟩, ⟨_, .inr (.inl rfl), Segment.start_mem _⟩,
      ⟨_, .inr (.inr rfl), Segment.finish_mem _⟩⟩

/-- All answers occur, for each kind of linear geometry where possible. -/
theorem C95_example_answers :
    planar.segmentInPolygon ⟨⟨2, 2⟩, ⟨7, 2⟩⟩ carvedPolygon (reference.context : Context ℚ) = .ok .within ∧
    planar.segmentInPolygon ⟨⟨4, 4⟩, ⟨5, 5⟩⟩ carvedPolygon (reference.context : Context ℚ) = .ok .disjoint ∧
    planar.contourInPolygon ⟨[⟨2, 2⟩, ⟨7, 2⟩, ⟨7, 7⟩, ⟨2, 7⟩]⟩ carvedPolygon (reference.context : Context ℚ) = .ok .within ∧
    planar.contourInPolygon ⟨[⟨4, 4⟩, ⟨5, 4⟩, ⟨5, 5⟩]⟩ carvedPolygon (reference.context : Context ℚ) = .ok .disjoint ∧
    planar.contourInPolygon ⟨[⟨0, 0⟩, ⟨9, 0⟩, ⟨9, 9⟩, ⟨0, 9⟩]⟩ carvedPolygon (reference.context : Context ℚ)
      = .ok .disjoint := by
  refine ⟨by decide +kernel, by decide +kernel, by decide +kernel, by decide +kernel, by decide +kernel⟩

/-- A segment which meets the boundary is not told by one point: both endpoints are outside, but it crosses. -/
theorem C95_counterexample :
    planar.pointInPolygon ⟨0, 2⟩ carvedPolygon (reference.context : Context ℚ) = .exterior ∧
    planar.pointInPolygon ⟨9, 2⟩ carvedPolygon (reference.context : Context ℚ) = .exterior ∧
    planar.segmentInPolygon ⟨⟨0, 2⟩, ⟨9, 2⟩⟩ carvedPolygon (reference.context : Context ℚ) = .ok .cross := by
  refine ⟨by decide +kernel, by decide +kernel, by decide +kernel⟩

end Orient.Props
