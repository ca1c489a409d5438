import Verif.Props.Borders
import Verif.Props.ExactPairs
import Verif.Props.ExactAnswers
import Verif.Props.ExactPolygons

/-! C80: polygons and their parts, for all valid polygons.

The conditions of C60 are needed only for the polygons of a multipolygon. -/

set_option linter.unusedSectionVars false

namespace Orient.Props

variable {K : Type} [Field K] [LinearOrder K] [IsStrictOrderedRing K]

theorem border_rel {g : Polygon K} (vg : g.Valid) :
    CompoundRel g.border.interior g.border.pts g.border.exterior g.interior g.pts g.exterior
      (if g.holes = [] then .equal else .encloses) := by
  split
  next h =>
    constructor <;> ext p <;> simp [Polygon.interior, Polygon.pts, Multiregion.exterior, Multiregion.pts, h]
  next h =>
    refine ⟨fun p hp => hp.1, fun p hp => ?_, ?_, ?_⟩
    · rcases hp with hp | hp
      · exact .inr hp
      · exact (vg.holed.inside p hp).imp id id
    · obtain ⟨p, p1, p2⟩ := (hole_point vg h).1
      exact ⟨p, p2, p1⟩
    · obtain ⟨p, hp⟩ := vg.border.exists_mem
      exact ⟨p, hp, .inl hp⟩

section

variable {context : Context K} (hc : context.Exact)

include hc

/-- C80: the border of a polygon as a region encloses the polygon or equals it. -/
theorem C80_border {g : Polygon K} (vg : g.Valid) :
    planar.regionInPolygon g.border g context = .ok (if g.holes = [] then .equal else .encloses) := by
  obtain ⟨r, hr, h⟩ := C74_region_in_polygon hc vg.border vg
  have k := border_rel vg
  rw [hr]
  refine congrArg _ ((h _).mp ⟨fun c => ?_, fun _ => k⟩).symm
  obtain ⟨b1, b2, b3⟩ := polygon_apart vg
  obtain ⟨k1, k2⟩ := polygon_nonempty vg
  have := CompoundRel.unique vg.border.interior_nonempty vg.border.exists_mem k1 k2 g.border.interior_pts
    g.border.interior_exterior b1 b2 k c
  split at this <;> cases this

/-- C80: a hole touches the polygon. -/
theorem C80_hole {g : Polygon K} (vg : g.Valid) {d : Region K} (hd : d ∈ g.holes) :
    planar.regionInPolygon d g context = .ok .touch := by
  have sd := vg.holes.simple d hd
  obtain ⟨r, hr, h⟩ := C74_region_in_polygon hc sd vg
  have k : CompoundRel (Contour.interior d) (Contour.pts d) (Contour.exterior d) g.interior g.pts g.exterior
      .touch := by
    refine ⟨?_, ?_⟩
    · obtain ⟨p, hp⟩ := sd.exists_mem
      exact ⟨p, hp, .inr ⟨d, hd, hp⟩⟩
    · rintro p ⟨p1 | p1, p2 | p2⟩
      · exact absurd (p2.2 d hd) (sd.split.ie p p1)
      · exact absurd p2 (vg.split.be p · (.inr ⟨d, hd, p1⟩))
      · exact absurd (p2.2 d hd) (sd.split.be p p1)
      · exact ⟨p1, p2⟩
  rw [hr]
  refine congrArg _ ((h _).mp ⟨fun c => ?_, fun _ => k⟩).symm
  obtain ⟨b1, b2, b3⟩ := polygon_apart vg
  obtain ⟨k1, k2⟩ := polygon_nonempty vg
  have := CompoundRel.unique sd.interior_nonempty sd.exists_mem k1 k2 (Contour.interior_pts d)
    (Contour.interior_exterior d) b1 b2 k c
  cases this

/-- C80: the holes together touch the polygon. -/
theorem C80_holes {g : Polygon K} (vg : g.Valid) (hh : g.holes ≠ []) :
    planar.multiregionInPolygon g.holes g context = .ok .touch := by
  have k : MultiregionRel g.holes g .touch := by
    refine ⟨?_, ?_⟩
    · obtain ⟨p, hp⟩ := (hole_point vg hh).2
      exact ⟨p, hp, .inr hp⟩
    · rintro p ⟨p1 | p1, p2 | p2⟩
      · obtain ⟨d, hd, p1⟩ := p1
        exact absurd (p2.2 d hd) ((vg.holes.simple d hd).split.ie p p1)
      · exact absurd p2 (vg.split.be p · (.inr p1))
      · obtain ⟨d, hd, p1⟩ := p1
        exact absurd (p2.2 d hd) ((vg.holes.simple d hd).split.be p p1)
      · exact ⟨p1, p2⟩
  obtain ⟨r, hr, -, h⟩ := C76_multiregion_in_polygon hc vg.holes hh vg k
  rw [hr]
  exact congrArg _ ((h hh .touch).mp rfl).symm

/-- C80: the polygon is enclosed by the polygon with the same border and without holes. -/
theorem C80_solid {g : Polygon K} (vg : g.Valid) :
    planar.polygonInPolygon g ⟨g.border, []⟩ context = .ok (if g.holes = [] then .equal else .enclosed) := by
  have vb : (⟨g.border, []⟩ : Polygon K).Valid := wraps_valid vg.border (.polygon ⟨g.border, []⟩) (by simp [wraps])
  have e : (⟨g.border, []⟩ : Polygon K).interior = g.border.interior ∧
      (⟨g.border, []⟩ : Polygon K).pts = g.border.pts ∧ (⟨g.border, []⟩ : Polygon K).exterior = g.border.exterior := by
    refine ⟨?_, ?_, ?_⟩ <;> ext p <;>
      simp [Polygon.interior, Polygon.pts, Polygon.exterior, Multiregion.exterior, Multiregion.pts, Multiregion.interior]
  have k : PolygonRel g ⟨g.border, []⟩ (if g.holes = [] then .equal else .enclosed) := by
    have := CompoundRel.swap (border_rel vg)
    unfold PolygonRel
    rw [e.1, e.2.1, e.2.2]
    split
    next h => rw [if_pos h] at this; exact this
    next h => rw [if_neg h] at this; exact this
  refine (C76_right_iff hc vg vb k).mpr ?_
  split <;> simp [Polygon.LooksWithin]

omit hc in
/-- The regions of a multiregion do not cross each other. -/
theorem not_edgesCross_regions {m : Multiregion K} (vm : Multiregion.Valid m) {d : Region K} (hd : d ∈ m) :
    ¬ EdgesCross (m.flatMap Contour.edgeList) (Contour.edgeList d) := by
  intro hX
  have pv : ∀ c ∈ m, (⟨c, []⟩ : Polygon K).Valid := fun c k =>
    wraps_valid (vm.simple c k) (.polygon ⟨c, []⟩) (by simp [wraps])
  have ei : ∀ c : Contour K, (⟨c, []⟩ : Polygon K).interior = c.interior := fun c => by
    ext p; simp [Polygon.interior, Multiregion.exterior]
  have ep : ∀ c : Contour K, (⟨c, []⟩ : Polygon K).pts = c.pts := fun c => by
    ext p; simp [Polygon.pts, Multiregion.pts]
  have vM : Multipolygon.Valid ⟨m.map fun c => (⟨c, []⟩ : Polygon K)⟩ := by
    refine ⟨?_, ?_⟩
    · intro g hg
      obtain ⟨c, hc, rfl⟩ := List.mem_map.mp hg
      exact pv c hc
    · simp only [List.pairwise_map, ei, ep]
      exact vm.apart
  have hm : (⟨d, []⟩ : Polygon K) ∈ (⟨m.map fun c => (⟨c, []⟩ : Polygon K)⟩ : Multipolygon K).polygons :=
    List.mem_map.mpr ⟨d, hd, rfl⟩
  have h1 := C60_polygon reference.context_exact vM hm (.inl (by
    simpa [Polygon.edges, Neat] using (vm.simple d hd).meet))
  obtain ⟨r, hr, h2⟩ := C73_polygon_in_multipolygon reference.context_exact (pv d hd) vM (List.ne_nil_of_mem hm)
  have h3 := ((h2 r).mpr rfl).1 (by
    simpa [Polygon.edges, List.flatMap_map] using hX)
  rw [hr, h3] at h1
  split at h1 <;> cases h1

/-- C80: the border and the boundaries of holes are on the boundary of the polygon. -/
theorem C80_contour {g : Polygon K} (vg : g.Valid) :
    planar.contourInPolygon g.border g context = .ok .component ∧
      ∀ d ∈ g.holes, planar.contourInPolygon d g context = .ok .component := by
  refine ⟨?_, fun d hd => ?_⟩
  · obtain ⟨r, hr, h⟩ := C74_contour_in_polygon hc vg.border vg
    rw [hr]
    refine congrArg _ ((h .component).mp ⟨?_, fun _ k => absurd Set.Subset.rfl k.2.1, fun _ _ p hp => .inl hp⟩).symm
    rintro ⟨⟨p, p1, p2⟩, -⟩
    exact absurd p1 (vg.border.split.ib p p2)
  · have sd := vg.holes.simple d hd
    obtain ⟨r, hr, h⟩ := C74_contour_in_polygon hc sd vg
    rw [hr]
    refine congrArg _ ((h .component).mp ⟨?_, fun _ k => absurd (fun p hp => ⟨d, hd, hp⟩) k.2.2,
      fun _ _ p hp => .inr ⟨d, hd, hp⟩⟩).symm
    rintro ⟨-, ⟨p, p1, p2⟩ | k | ⟨⟨p, p1, c, hc', p2⟩, -⟩⟩
    · rcases vg.holed.inside p ⟨d, hd, p1⟩ with k | k
      · exact absurd p2 (vg.border.split.ie p k)
      · exact absurd p2 (vg.border.split.be p k)
    · exact absurd k (not_edgesCross_regions vg.holes hd)
    · exact absurd ⟨d, hd, p1⟩ (vg.holes.split.ib p ⟨c, hc', p2⟩)

/-- C80: a polygon of a multipolygon is a component of it, or equals it if it is the only one, unless its edges
cross edges of the others, and then `OVERLAP` is answered. -/
theorem C80_polygon {m : Multipolygon K} (vm : m.Valid) {g : Polygon K} (h : g ∈ m.polygons) :
    (EdgesCross (m.polygons.flatMap Polygon.edges) g.edges →
      planar.polygonInMultipolygon g m context = .ok .overlap) ∧
    (¬ EdgesCross (m.polygons.flatMap Polygon.edges) g.edges →
      planar.polygonInMultipolygon g m context = .ok (if m.polygons = [g] then .equal else .component)) := by
  obtain ⟨r, hr, k⟩ := C73_polygon_in_multipolygon hc (vm.valid g h) vm (List.ne_nil_of_mem h)
  have k' := (k r).mpr rfl
  refine ⟨fun hX => by rw [hr, k'.1 hX], fun hX => ?_⟩
  rw [hr]
  refine congrArg _ ((k _).mp ⟨fun c => absurd c hX, fun _ => ?_⟩).symm
  split
  next e => constructor <;> ext p <;> simp [Multipolygon.interior, Multipolygon.pts, e]
  next e =>
    obtain ⟨d, hd, hn, -⟩ := (other_of_mem (R := fun a b : Polygon K => a.interior ∩ b.interior = ∅ ∧
      ¬ SharesPiece a.pts b.pts) (fun a b h => ⟨by rw [Set.inter_comm]; exact h.1, fun k => h.2 k.symm⟩) vm.apart
      h).resolve_left e
    obtain ⟨p, hp⟩ := (polygon_nonempty (vm.valid d hd)).1
    have pm : p ∈ m.interior := ⟨d, hd, hp⟩
    refine ⟨fun x hx => ⟨g, h, hx⟩, fun x hx => ⟨g, h, hx⟩, p, ?_, pm⟩
    rcases (vm.valid g h).split.cover p with k | k | k
    · exact absurd ⟨k, hp⟩ (Set.eq_empty_iff_forall_notMem.mp hn p)
    · exact absurd ⟨g, h, k⟩ ((multipolygon_split vm).ib p pm)
    · exact k

end

/-! ### Examples -/

/-- A polygon which goes through the points where the hole of `exampleSplit` touches its border. -/
def exampleThrough : Polygon ℚ :=
  ⟨⟨[⟨-12, 0⟩, ⟨22, 0⟩, ⟨22, 12⟩, ⟨-12, 12⟩]⟩, [⟨[⟨0, 0⟩, ⟨8, 3⟩, ⟨20, 0⟩, ⟨21, 11⟩, ⟨3, 11⟩]⟩]⟩

theorem exampleThrough_valid : Multipolygon.Valid ⟨[exampleSplit, exampleThrough]⟩ := by
  have vt : exampleThrough.Valid := Polygon.valid_of_check (by decide +kernel)
  refine ⟨by simpa using ⟨C41_counterexample.1, vt⟩, ?_⟩
  have h : PolygonRel exampleSplit' exampleThrough .touch :=
    C72_wrapped reference.context_exact (Polygon.valid_of_check (by decide +kernel)) vt (by decide +kernel) (by decide)
  have hi : exampleSplit.interior ∩ exampleThrough.interior = ∅ := by
    rw [← exampleSplit_same.1]
    refine Set.eq_empty_iff_forall_notMem.mpr fun x hx => ?_
    have k := h.2 ⟨.inl hx.1, .inl hx.2⟩
    exact vt.split.ib x hx.2 k.2
  have hp : ¬ SharesPiece exampleSplit.pts exampleThrough.pts := by
    rw [← Polygon.segsPts_edges, ← Polygon.segsPts_edges]
    exact reference.sharesNothing_spec (by decide +kernel)
  simpa using ⟨hi, hp⟩

/-- C80: a polygon of a valid multipolygon is not a component of it for the function. -/
theorem C80_counterexample_polygon :
    Multipolygon.Valid ⟨[exampleSplit, exampleThrough]⟩ ∧
      planar.polygonInMultipolygon exampleSplit ⟨[exampleSplit, exampleThrough]⟩ (reference.context : Context ℚ)
        = .ok .overlap :=
  ⟨exampleThrough_valid, by decide +kernel⟩

/-- C80: a polygon with a disconnected interior. -/
theorem C80_example :
    planar.regionInPolygon exampleSplit.border exampleSplit (reference.context : Context ℚ) = .ok .encloses ∧
      planar.multiregionInPolygon exampleSplit.holes exampleSplit (reference.context : Context ℚ) = .ok .touch ∧
      planar.polygonInPolygon exampleSplit ⟨exampleSplit.border, []⟩ (reference.context : Context ℚ)
        = .ok .enclosed := by
  have v := C41_counterexample.1
  exact ⟨C80_border reference.context_exact v, C80_holes reference.context_exact v (by simp [exampleSplit]),
    C80_solid reference.context_exact v⟩

end Orient.Props
