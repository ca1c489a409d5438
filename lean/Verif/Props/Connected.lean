import Verif.Lemmas.Touching
import Verif.Props.PointInCompound
import Verif.Props.PointQueries
import Verif.Props.MultiCheck
import Mathlib.Algebra.Field.Rat
import Mathlib.Algebra.Order.Ring.Rat

/-! C42: inner points of a polygon are joined inside of it. -/

set_option linter.unusedSectionVars false

namespace Orient.Props

variable {K : Type} [Field K] [LinearOrder K] [IsStrictOrderedRing K]

theorem point_in_polygon_interior {context : Context K} (hc : context.Exact) (p : Point K) (g : Polygon K) :
    planar.pointInPolygon p g context = .interior ↔ p ∈ g.interior :=
  C15_point_in_polygon_interior hc p g

/-- C42: if the border and the holes touch each other without closing a ring then points for which
`point_in_polygon` answers `INTERIOR` are joined by a polyline of such points. -/
theorem C42_interior_joined {context : Context K} (hc : context.Exact) {g : Polygon K} (hg : g.Valid)
    (hl : g.Loose) {p q : Point K} (hp : planar.pointInPolygon p g context = .interior)
    (hq : planar.pointInPolygon q g context = .interior) :
    Joined {x | planar.pointInPolygon x g context ≠ .interior} p q := by
  rw [point_in_polygon_interior hc] at hp hq
  have j := hg.connected hl p hp q hq
  have key : ∀ {r}, Joined g.pts p r →
      Joined {x | planar.pointInPolygon x g context ≠ .interior} p r ∧ r ∈ g.interior := by
    intro r h
    induction h with
    | refl => exact ⟨.refl, hp⟩
    | step h1 h2 ih =>
      have inner : ∀ z ∈ (⟨_, _⟩ : Segment K).pts, z ∈ g.interior := fun z hz =>
        hg.interior_of_joined ih.2 (.single fun y hy => h2 y ?_) (h2 z hz)
      · exact ⟨ih.1.step fun z hz hn => hn ((point_in_polygon_interior hc z g).mpr (inner z hz)),
          inner _ (Segment.finish_mem _)⟩
      · obtain ⟨u, u0, u1, rfl⟩ := hy
        exact lerp_mem_pts (Segment.start_mem _) hz u0 u1
  exact (key j).1

/-- C42: points off the contours have the same locations with respect to all of them iff they are joined
by a polyline which does not meet them. -/
theorem C42_same_locations_iff_joined {context : Context K} (hc : context.Exact) {m : List (Region K)}
    (hs : ∀ c ∈ m, Contour.Simple c) (hl : Loose m) {p q : Point K} (hp : p ∉ Multiregion.pts m)
    (hq : q ∉ Multiregion.pts m) :
    (∀ c ∈ m, planar.pointInRegion p c context = planar.pointInRegion q c context) ↔
      Joined (Multiregion.pts m) p q := by
  rw [hl.joined_iff hs hp hq]
  refine forall₂_congr fun c hm => ?_
  have off : ∀ {x}, x ∉ Multiregion.pts m → (planar.pointInRegion x c context = .interior ↔ x ∈ c.interior) ∧
      planar.pointInRegion x c context ≠ .boundary := by
    intro x hx
    exact ⟨C10_point_in_region_unique hc x c _, fun h =>
      hx ⟨c, hm, (C10_point_in_region_unique hc x c .boundary).mp h⟩⟩
  have k1 := off hp
  have k2 := off hq
  rw [← k1.1, ← k2.1]
  have n1 := k1.2
  have n2 := k2.2
  generalize planar.pointInRegion p c context = a at *
  generalize planar.pointInRegion q c context = b at *
  cases a <;> cases b <;> simp_all

/-! ### an example -/

/-- The segments meet at most at the point. -/
def reference.meetOnlyAt (w : Point K) (l m : List (Segment K)) : Bool :=
  l.all fun a => m.all fun b => decide (a.start ≠ a.finish) && decide (b.start ≠ b.finish) &&
    (decide (reference.segmentsRelation a b = .disjoint) || (reference.meetsAtPoint a b &&
      decide (planar.pointInSegment w a reference.context = .boundary) &&
      decide (planar.pointInSegment w b reference.context = .boundary)))

theorem reference.meetOnlyAt_spec' {w : Point K} {l m : List (Segment K)}
    (h : reference.meetOnlyAt w l m = true) {x : Point K} (hx : x ∈ segsPts l ∩ segsPts m) : x = w := by
  obtain ⟨⟨s, hs, h1⟩, t, ht, h2⟩ := hx
  unfold reference.meetOnlyAt at h
  rw [List.all_eq_true] at h
  have h := h s hs
  rw [List.all_eq_true] at h
  have h := h t ht
  simp only [Bool.and_eq_true, Bool.or_eq_true, decide_eq_true_eq] at h
  obtain ⟨⟨hsn, htn⟩, h⟩ := h
  have hr := reference.segmentsRelation_spec hsn htn
  rcases h with h | ⟨⟨h, w1⟩, w2⟩
  · rw [h] at hr
    exact absurd ⟨h1, h2⟩ (Set.eq_empty_iff_forall_notMem.mp hr x)
  · rw [(C01_point_in_segment reference.context_exact _ _).1] at w1 w2
    unfold reference.meetsAtPoint at h
    have hx : x ∈ s.pts ∩ t.pts := ⟨h1, h2⟩
    have hw : w ∈ s.pts ∩ t.pts := ⟨w1, w2⟩
    revert hr h
    cases reference.segmentsRelation s t <;> simp only [SegmentsRel, Bool.false_eq_true,
      false_implies, implies_true, forall_const]
    · intro e; rw [e] at hx; exact hx.elim
    · rintro ⟨p, e, -⟩; rw [e] at hx hw; exact hx.trans hw.symm
    · rintro ⟨p, e, -⟩; rw [e] at hx hw; exact hx.trans hw.symm

theorem reference.meetOnlyAt_spec {w : Point K} {l m : List (Segment K)}
    (h : reference.meetOnlyAt w l m = true) : (segsPts l ∩ segsPts m).Subsingleton :=
  fun _ hx _ hy => (reference.meetOnlyAt_spec' h hx).trans (reference.meetOnlyAt_spec' h hy).symm

/-- The endpoints of each segment of the first list are on a segment of the second one. -/
def reference.covered (l m : List (Segment K)) : Bool :=
  l.all fun a => m.any fun b => decide (planar.pointInSegment a.start b reference.context = .boundary) &&
    decide (planar.pointInSegment a.finish b reference.context = .boundary)

theorem covered_of_check {l m : List (Segment K)} (h : reference.covered l m = true) :
    segsPts l ⊆ segsPts m := by
  rintro z ⟨a, ha, u, u0, u1, rfl⟩
  unfold reference.covered at h
  rw [List.all_eq_true] at h
  have h := h a ha
  rw [List.any_eq_true] at h
  obtain ⟨b, hb, h⟩ := h
  rw [Bool.and_eq_true, decide_eq_true_eq, decide_eq_true_eq,
    (C01_point_in_segment reference.context_exact _ _).1,
    (C01_point_in_segment reference.context_exact _ _).1] at h
  exact ⟨b, hb, lerp_mem_pts h.1 h.2 u0 u1⟩

/-- A decision procedure for contours which touch each other without closing a ring, the touching points
are given. -/
def reference.isLoose : List (Contour K × Point K) → Bool
  | [] => true
  | (c, w) :: m => reference.meetOnlyAt w c.edgeList (edgesOf (m.map Prod.fst)) && reference.isLoose m

theorem reference.isLoose_spec : ∀ {m : List (Contour K × Point K)}, reference.isLoose m = true →
    Loose (m.map Prod.fst)
  | [], _ => trivial
  | (c, w) :: m, h => by
    unfold reference.isLoose at h
    rw [Bool.and_eq_true] at h
    refine ⟨?_, reference.isLoose_spec h.2⟩
    have := reference.meetOnlyAt_spec h.1
    rwa [segsPts_edgesOf] at this

/-- A square with a hole that touches the border, a hole that touches the first one, and a separate one. -/
def exampleHoles : Polygon ℚ :=
  ⟨⟨[⟨0, 0⟩, ⟨10, 0⟩, ⟨10, 10⟩, ⟨0, 10⟩]⟩,
    [⟨[⟨0, 3⟩, ⟨2, 2⟩, ⟨2, 4⟩]⟩, ⟨[⟨2, 3⟩, ⟨4, 2⟩, ⟨4, 4⟩]⟩, ⟨[⟨6, 6⟩, ⟨8, 6⟩, ⟨8, 8⟩, ⟨6, 8⟩]⟩]⟩

theorem exampleHoles_valid : exampleHoles.Valid := Polygon.valid_of_check (by decide +kernel)

theorem exampleHoles_loose : exampleHoles.Loose :=
  ⟨_, .refl _, reference.isLoose_spec (m := [(exampleHoles.border, ⟨0, 3⟩),
    (⟨[⟨0, 3⟩, ⟨2, 2⟩, ⟨2, 4⟩]⟩, ⟨2, 3⟩), (⟨[⟨2, 3⟩, ⟨4, 2⟩, ⟨4, 4⟩]⟩, ⟨0, 0⟩),
    (⟨[⟨6, 6⟩, ⟨8, 6⟩, ⟨8, 8⟩, ⟨6, 8⟩]⟩, ⟨0, 0⟩)]) (by decide +kernel)⟩

theorem exampleHoles_connected : exampleHoles.Connected := exampleHoles_valid.connected exampleHoles_loose

/-- C42 applies to points at different sides of the touching holes. -/
theorem C42_example : Joined {x | planar.pointInPolygon x exampleHoles (reference.context : Context ℚ)
    ≠ .interior} ⟨1, 1⟩ ⟨1, 5⟩ ∧
    Joined (Multiregion.pts [exampleHoles.border, ⟨[⟨0, 3⟩, ⟨2, 2⟩, ⟨2, 4⟩]⟩]) ⟨1, 1⟩ ⟨1, 5⟩ := by
  refine ⟨C42_interior_joined reference.context_exact exampleHoles_valid exampleHoles_loose
    (by decide +kernel) (by decide +kernel), ?_⟩
  have off : ∀ {p : Point ℚ}, planar.pointInPolygon p exampleHoles (reference.context : Context ℚ) = .interior →
      p ∉ Multiregion.pts [exampleHoles.border, ⟨[⟨0, 3⟩, ⟨2, 2⟩, ⟨2, 4⟩]⟩] := by
    rintro p hp ⟨c, hc, h⟩
    rw [point_in_polygon_interior reference.context_exact] at hp
    rcases List.mem_cons.mp hc with rfl | hc
    · exact hp.1.1 h
    · refine (hp.2 c ?_).1 h
      rw [List.mem_singleton] at hc
      rw [hc]
      exact List.mem_cons_self
  refine (C42_same_locations_iff_joined reference.context_exact (m := [exampleHoles.border,
    ⟨[⟨0, 3⟩, ⟨2, 2⟩, ⟨2, 4⟩]⟩]) ?_ (reference.isLoose_spec (m := [(exampleHoles.border, ⟨0, 3⟩),
    (⟨[⟨0, 3⟩, ⟨2, 2⟩, ⟨2, 4⟩]⟩, ⟨0, 0⟩)]) (by decide +kernel)) (off (by decide +kernel))
    (off (by decide +kernel))).mp (by decide +kernel)
  intro c hc
  rcases List.mem_cons.mp hc with rfl | hc
  · exact exampleHoles_valid.border
  · rw [List.mem_singleton] at hc
    rw [hc]
    exact exampleHoles_valid.holes.simple _ List.mem_cons_self

/-- C42: without the hypothesis the claim is false, a hole which touches the border at two points divides
the interior. -/
theorem C42_counterexample :
    let g : Polygon ℚ := ⟨⟨[⟨0, 0⟩, ⟨4, 0⟩, ⟨4, 4⟩, ⟨0, 4⟩]⟩, [⟨[⟨0, 2⟩, ⟨2, 1⟩, ⟨4, 2⟩, ⟨2, 3⟩]⟩]⟩
    g.Valid ∧ planar.pointInPolygon ⟨1, 1⟩ g (reference.context : Context ℚ) = .interior ∧
      planar.pointInPolygon ⟨1, 3⟩ g (reference.context : Context ℚ) = .interior ∧
      ¬ Joined {x | planar.pointInPolygon x g (reference.context : Context ℚ) ≠ .interior} ⟨1, 1⟩ ⟨1, 3⟩ := by
  intro g
  refine ⟨Polygon.valid_of_check (by decide +kernel), by decide +kernel, by decide +kernel, fun h => ?_⟩
  -- a contour along the lower half of the polygon
  have sub : ∀ z ∈ Contour.pts (⟨[⟨0, 0⟩, ⟨4, 0⟩, ⟨4, 2⟩, ⟨2, 1⟩, ⟨0, 2⟩]⟩ : Contour ℚ),
      planar.pointInPolygon z g (reference.context : Context ℚ) ≠ .interior := by
    rintro z ⟨e, he, hz⟩ hi
    rw [point_in_polygon_interior reference.context_exact] at hi
    have : z ∈ segsPts g.edges := covered_of_check (l := (⟨[⟨0, 0⟩, ⟨4, 0⟩, ⟨4, 2⟩, ⟨2, 1⟩, ⟨0, 2⟩]⟩ :
      Contour ℚ).edgeList) (by decide +kernel) ⟨e, he, hz⟩
    rw [Polygon.segsPts_edges] at this
    rcases this with h | ⟨d, hd, h⟩
    · exact hi.1.1 h
    · exact (hi.2 d hd).1 h
  have j : Joined (Contour.pts (⟨[⟨0, 0⟩, ⟨4, 0⟩, ⟨4, 2⟩, ⟨2, 1⟩, ⟨0, 2⟩]⟩ : Contour ℚ)) ⟨1, 1⟩ ⟨1, 3⟩ := by
    generalize (⟨1, 3⟩ : Point ℚ) = q at h
    induction h with
    | refl => exact .refl
    | step _ h2 ih => exact ih.step fun z hz hc => h2 z hz (sub z hc)
  have := Contour.interior_iff_of_joined j
  rw [show (⟨1, 1⟩ : Point ℚ) ∈ _ ↔ _ from (C10_point_in_region_unique reference.context_exact _ _ .interior).symm,
    show (⟨1, 3⟩ : Point ℚ) ∈ _ ↔ _ from (C10_point_in_region_unique reference.context_exact _ _ .interior).symm] at this
  revert this
  decide +kernel

end Orient.Props
