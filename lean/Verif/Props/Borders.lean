import Verif.Spec.Borders
import Verif.Props.Wrapping

/-! C59-C61: regions and their boundaries, polygons and their borders and holes, convex regions. -/

set_option linter.unusedSectionVars false

namespace Orient.Props

variable {K : Type} [Field K] [LinearOrder K] [IsStrictOrderedRing K]

section

variable {context : Context K} (hc : context.Exact)

include hc

omit hc [IsStrictOrderedRing K] in
theorem border_locations {l l' b : Point K → Location} {r q : Relation} (h : ArealLocations l b r)
    (k : LinearLocations l' b q) (hl : ∀ p, l' p = .boundary ↔ l p = .boundary) (ne : ∃ p, l p = .boundary)
    (ne' : ∃ p, b p = .boundary) : q ∈ r.border := by
  obtain ⟨z, hz⟩ := ne
  obtain ⟨z', hz'⟩ := ne'
  have c : b z = .interior ∨ b z = .boundary ∨ b z = .exterior := by cases b z <;> simp
  cases r <;> simp only [ArealLocations] at h <;> cases q <;> simp only [LinearLocations, hl] at k <;>
    simp only [Relation.border, List.mem_cons, List.not_mem_nil, or_false, reduceCtorEq, or_true] <;>
    grind

/-- C59: the relation of an areal geometry to another one restricts the relation of its boundary. -/
theorem C59_border {a b : Area K} {l : Line K} (va : a.Valid) (vb : b.Valid) (vl : l.Valid) (h : a.Suits b)
    (h' : l.Suits b) (hl : ∀ p, l.locate context p = .boundary ↔ a.locate context p = .boundary) {r : Relation}
    (k : a.relate context b = .ok r) : ∃ q ∈ r.border, l.relate context b = .ok q := by
  obtain ⟨q, hq⟩ := line_relate_total hc vl vb h'
  refine ⟨q, ?_, hq⟩
  rw [C54_areas hc va vb h] at k
  rw [C54_lines hc vl vb h'] at hq
  exact border_locations k hq hl (area_inhabited hc va _ (by simp)) (area_inhabited hc vb _ (by simp))

theorem contour_locate_iff {a : Contour K} (ha : a.Simple) (p : Point K) :
    planar.pointInContour p a context = .boundary ↔ planar.pointInRegion p a context = .boundary := by
  rw [contour_located hc, (region_located hc ha).boundary]

/-- C59: a region and its boundary. -/
theorem C59_region {a : Contour K} {b : Area K} (ha : a.Simple) (vb : b.Valid) (h : (Area.region a).Suits b)
    (h' : (Line.contour a).Suits b) {r : Relation} (k : (Area.region a).relate context b = .ok r) :
    ∃ q ∈ r.border, (Line.contour a).relate context b = .ok q :=
  C59_border hc (a := .region a) (l := .contour a) ha vb ha h h' (contour_locate_iff hc ha) k

omit hc [IsStrictOrderedRing K] in
theorem regionBorder_of {l l' lc : Point K → Location} {r q : Relation} (hr : ArealLocations l l' r) (hq : q ∈ r.border)
    (hq' : LinearLocations lc l' q) (hl : ∀ p, lc p = .boundary ↔ l p = .boundary)
    (out : (∃ p, l p = .interior ∧ l' p = .exterior) → ∃ p, l p = .boundary ∧ l' p = .exterior)
    (ins : (∃ p, l p = .interior ∧ l' p = .interior) → (∃ p, l p = .exterior ∧ l' p = .interior) →
      ∃ p, l p = .boundary ∧ l' p = .interior)
    (same : (∀ p, l p = .boundary → l' p = .boundary) → ∀ p, l p = l' p)
    (same' : (∀ p, l' p = .boundary → l p = .boundary) → ∀ p, l p = l' p) (ne : ∃ p, l p = .interior) :
    r.regionBorder = [q] := by
  obtain ⟨z, hz⟩ := ne
  cases r <;> simp only [Relation.border, List.mem_cons, List.not_mem_nil, or_false] at hq <;>
    (try (rcases hq with rfl | rfl | rfl | rfl | rfl | rfl)) <;>
    first
    | rfl
    | (exfalso
       simp only [LinearLocations, hl] at hq'
       simp only [ArealLocations] at hr
       grind)

/-- Facts about regions in terms of locations. -/
theorem regions_locations {a b : Contour K} (ha : a.Simple) (hb : b.Simple) :
    ((∃ p, planar.pointInRegion p a context = .interior ∧ planar.pointInRegion p b context = .exterior) →
      ∃ p, planar.pointInRegion p a context = .boundary ∧ planar.pointInRegion p b context = .exterior) ∧
    ((∃ p, planar.pointInRegion p a context = .interior ∧ planar.pointInRegion p b context = .interior) →
      (∃ p, planar.pointInRegion p a context = .exterior ∧ planar.pointInRegion p b context = .interior) →
      ∃ p, planar.pointInRegion p a context = .boundary ∧ planar.pointInRegion p b context = .interior) ∧
    ((∀ p, planar.pointInRegion p a context = .boundary → planar.pointInRegion p b context = .boundary) →
      ∀ p, planar.pointInRegion p a context = planar.pointInRegion p b context) := by
  have la := region_located hc ha
  have lb := region_located hc hb
  simp only [la.interior, la.boundary, la.exterior, lb.interior, lb.boundary, lb.exterior]
  refine ⟨?_, ?_, ?_⟩
  · rintro ⟨p, p1, p2⟩
    obtain ⟨z, z1, z2⟩ := ha.far hb
    by_contra h
    refine Contour.not_both ((hb.same_outside ?_ p2 z2).mp p1) z1
    exact Set.eq_empty_iff_forall_notMem.mpr fun x hx => h ⟨x, hx⟩
  · rintro ⟨p, p1, p2⟩ ⟨z, z1, z2⟩
    by_contra h
    refine Contour.not_both ((hb.same_inside ?_ p2 z2).mp p1) z1
    exact Set.eq_empty_iff_forall_notMem.mpr fun x hx => h ⟨x, hx⟩
  · intro h p
    have e := hb.pts_eq_of_subset ha h
    exact located_eq hc la lb (ha.interior_congr hb e) e p

/-- C59: the relation of regions determines the relation of the boundary of the first one to the second one. -/
theorem C59_regions {a b : Contour K} (ha : a.Simple) (hb : b.Simple) : ∃ r q,
    planar.regionInRegion a b context = .ok r ∧ planar.contourInRegion a b context = .ok q ∧
      r.regionBorder = [q] := by
  obtain ⟨r, hr⟩ := area_relate_total hc (a := .region a) (b := .region b) ha hb trivial
  obtain ⟨q, hq, hq'⟩ := C59_region hc (b := .region b) ha hb trivial trivial hr
  refine ⟨r, q, hr, hq', ?_⟩
  rw [C54_areas hc (a := .region a) (b := .region b) ha hb trivial] at hr
  rw [C54_lines hc (a := .contour a) (b := .region b) ha hb trivial] at hq'
  obtain ⟨h1, h2, h3⟩ := regions_locations hc ha hb
  obtain ⟨-, -, h4⟩ := regions_locations hc hb ha
  exact regionBorder_of hr hq hq' (contour_locate_iff hc ha) h1 h2 h3 (fun h p => (h4 h p).symm)
    (area_inhabited hc (a := .region a) ha _ (by simp))

/-- C59: the relation of regions restricts the relation of their boundaries. -/
theorem C59_contours {a b : Contour K} (ha : a.Simple) (hb : b.Simple) : ∃ r q,
    planar.regionInRegion a b context = .ok r ∧ planar.contourInContour a b context = .ok q ∧
      q ∈ r.contours := by
  obtain ⟨r, q, hr, hq, h⟩ := C59_regions hc ha hb
  obtain ⟨q', hq', h'⟩ := C36_contour_in_contour_partial hc ha hb
  refine ⟨r, q', hr, hq', ?_⟩
  have lb := region_located hc hb
  replace hq := (linearLocations_iff (contour_located hc a) lb q).mp
    ((C54_lines hc (a := .contour a) (b := .region b) ha hb trivial q).mp hq)
  have sp : SharesPiece a.pts b.pts → (a.pts ∩ b.pts).Nonempty := fun h => h.inter_nonempty
  have nb := Contour.not_both_of_disjoint (a := a) (b := b)
  have eq := hb.pts_eq_of_subset ha
  have self := ha.sharesPiece
  have j := hb.split
  have key : q' ∈ (match q with
      | .disjoint | .within => [Relation.disjoint]
      | .component => [.equal]
      | .cross => [.touch, .cross, .overlap]
      | _ => [.touch, .overlap]) := by
    clear h hr hq' lb
    replace h' : ContoursRel a b q' ∨ (q' = .touch ∧ ContoursRel a b .cross) := h'.imp_right fun h => ⟨h.1, h.2.1⟩
    have e : a.pts = b.pts → SharesPiece a.pts b.pts := fun h => h ▸ self
    obtain ⟨j1, j2, j3, j4⟩ := j
    obtain ⟨z, hz⟩ := area_inhabited hc (a := .region a) ha .boundary (by simp)
    replace hz := ((region_located hc ha).boundary z).mp hz
    clear self
    cases q' <;> simp only [ContoursRel, reduceCtorEq, false_and, true_and, or_false] at h' <;>
      cases q <;> simp only [LinearCompoundRel] at hq <;> generalize SharesPiece a.pts b.pts = P at * <;>
      generalize a.pts = A at * <;> generalize b.pts = B at * <;> generalize b.interior = I at * <;>
      generalize b.exterior = E at * <;> clear ha hb hc <;>
      simp only [List.mem_cons, List.not_mem_nil, or_false, reduceCtorEq, or_true] <;>
      (try simp only [Set.Nonempty, Set.mem_inter_iff, Set.subset_def, Set.ext_iff, Set.mem_empty_iff_false] at *) <;>
      grind
  clear hq h' sp nb eq self j lb hr hq'
  cases r <;> simp only [Relation.regionBorder, List.cons.injEq, and_true, reduceCtorEq] at h <;> subst h <;>
    simpa only [Relation.contours] using key
/-! ### polygons and their parts -/

omit hc in
theorem hole_point {g : Polygon K} (vg : g.Valid) (h : g.holes ≠ []) :
    (∃ p, p ∈ g.border.interior ∧ p ∈ g.pts) ∧ ∃ p, p ∈ Multiregion.pts g.holes := by
  obtain ⟨d, hd⟩ := List.exists_mem_of_ne_nil _ h
  obtain ⟨p, p1, p2⟩ := vg.hole_meets hd
  exact ⟨⟨p, p2, .inr ⟨d, hd, p1⟩⟩, p, d, hd, p1⟩

/-- C60: the border of a polygon as a region encloses the polygon or equals it. -/
theorem C60_border {g : Polygon K} (vg : g.Valid) (cg : g.Connected) :
    planar.regionInPolygon g.border g context = .ok (if g.holes = [] then .equal else .encloses) := by
  rw [C54_region_in_polygon hc vg.border vg cg]
  have lb := region_located hc vg.border
  have lg := polygon_located hc vg
  split
  next h =>
    intro p
    refine located_eq hc lb lg ?_ ?_ p <;> ext p <;>
      simp [Polygon.interior, Polygon.pts, Multiregion.exterior, Multiregion.pts, h]
  next h =>
    simp only [ArealLocations, lb.interior, lb.boundary, lb.exterior, lg.interior, lg.boundary, ne_eq]
    refine ⟨fun p hp => hp.1, fun p hp hn => ?_, (hole_point vg h).1, ?_⟩
    · rcases hp with hp | hp
      · exact vg.border.split.be p hp hn
      · rcases vg.holed.inside p hp with h | h
        · exact vg.border.split.ie p h hn
        · exact vg.border.split.be p h hn
    · obtain ⟨p, hp⟩ := area_inhabited hc (a := .region g.border) vg.border .boundary (by simp)
      have := (lb.boundary p).mp hp
      exact ⟨p, this, .inl this⟩

/-- C60: a hole touches the polygon. -/
theorem C60_hole {g : Polygon K} (vg : g.Valid) (cg : g.Connected) {d : Region K} (hd : d ∈ g.holes) :
    planar.regionInPolygon d g context = .ok .touch := by
  have sd := vg.holes.simple d hd
  rw [C54_region_in_polygon hc sd vg cg]
  have lb := region_located hc sd
  have lg := polygon_located hc vg
  simp only [ArealLocations, lb.boundary, lb.exterior, lg.boundary, lg.exterior]
  constructor
  · obtain ⟨p, hp⟩ := area_inhabited hc (a := .region d) sd .boundary (by simp)
    have := (lb.boundary p).mp hp
    exact ⟨p, this, .inr ⟨d, hd, this⟩⟩
  · intro p
    rcases sd.split.cover p with h | h | h
    · exact .inr (.inl (.inr ⟨d, hd, h⟩))
    · exact .inr (.inr ⟨h, .inr ⟨d, hd, h⟩⟩)
    · exact .inl h

/-- C60: the holes together touch the polygon. -/
theorem C60_holes {g : Polygon K} (vg : g.Valid) (cg : g.Connected) (h : g.holes ≠ []) :
    planar.multiregionInPolygon g.holes g context = .ok .touch := by
  rw [C54_multiregion_in_polygon hc vg.holes vg h cg]
  have lb := multiregion_located hc vg.holes
  have lg := polygon_located hc vg
  simp only [ArealLocations, lb.boundary, lb.exterior, lg.boundary, lg.exterior]
  constructor
  · obtain ⟨p, hp⟩ := (hole_point vg h).2
    exact ⟨p, hp, .inr hp⟩
  · intro p
    rcases vg.holes.split.cover p with h | h | h
    · exact .inr (.inl (.inr h))
    · exact .inr (.inr ⟨h, .inr h⟩)
    · exact .inl h

/-- C60: the polygon is enclosed by the polygon with the same border and without holes. -/
theorem C60_solid {g : Polygon K} (vg : g.Valid) (cg : g.Connected) :
    planar.polygonInPolygon g ⟨g.border, []⟩ context = .ok (if g.holes = [] then .equal else .enclosed) := by
  have k := C60_border hc vg cg
  have vb : (⟨g.border, []⟩ : Polygon K).Valid := wraps_valid vg.border (.polygon ⟨g.border, []⟩) (by simp [wraps])
  have cb := connected_of_no_holes vg.border
  have s : (Area.polygon g).Suits (.polygon ⟨g.border, []⟩) := by
    refine ⟨cg, cb, by simp, fun d hd ht => ?_⟩
    obtain ⟨p, hp⟩ := area_inhabited hc (a := .region d) (vg.holes.simple d hd) .interior (by simp)
    replace hp := ((region_located hc (vg.holes.simple d hd)).interior p).mp hp
    exact (vg.holes.simple d hd).split.ib p hp (ht.2 ⟨.inl hp, .inl (vg.inside d hd hp)⟩).1
  have e := C56_areas hc (a := .polygon g) (a' := .polygon g) (b := .polygon ⟨g.border, []⟩) (b' := .region g.border)
    vg vg vb vg.border s cg (fun _ => rfl) (C56_locate_region hc vg.border (.polygon ⟨g.border, []⟩) (by simp [wraps]))
  simp only [Area.relate, k] at e
  rw [e]
  split <;> rfl

/-- C60: the border and the boundaries of holes are on the boundary of the polygon. -/
theorem C60_contour {g : Polygon K} (vg : g.Valid) (cg : g.Connected) (ng : Neat (g.holes.flatMap Contour.edgeList)) :
    planar.contourInPolygon g.border g context = .ok .component ∧
      ∀ d ∈ g.holes, planar.contourInPolygon d g context = .ok .component := by
  have lg := polygon_located hc vg
  refine ⟨?_, fun d hd => ?_⟩
  · rw [C54_contour_in_polygon hc vg.border vg cg ng]
    simp only [LinearLocations, lg.boundary, contour_located hc]
    exact fun p hp => .inl hp
  · rw [C54_contour_in_polygon hc (vg.holes.simple d hd) vg cg ng]
    simp only [LinearLocations, lg.boundary, contour_located hc]
    exact fun p hp => .inr ⟨d, hd, hp⟩

/-! ### the elements of multiregions and multipolygons -/

omit hc [Field K] [LinearOrder K] [IsStrictOrderedRing K] in
theorem other_of_mem {α : Type} {R : α → α → Prop} (hs : ∀ a b, R a b → R b a) {l : List α} (h : l.Pairwise R) {a : α}
    (ha : a ∈ l) : l = [a] ∨ ∃ b ∈ l, R a b := by
  obtain ⟨s, t, rfl⟩ := List.append_of_mem ha
  rw [List.pairwise_append, List.pairwise_cons] at h
  obtain ⟨-, ⟨h1, -⟩, h2⟩ := h
  rcases s with - | ⟨b, s⟩
  · rcases t with - | ⟨b, t⟩
    · exact .inl rfl
    · exact .inr ⟨b, by simp, h1 b (by simp)⟩
  · exact .inr ⟨b, by simp, hs _ _ (h2 b (by simp) a (by simp))⟩

/-- C60: a region of a multiregion is a component of it, or equals it if it is the only one. -/
theorem C60_region {m : Multiregion K} (vm : Multiregion.Valid m) {c : Region K} (h : c ∈ m) :
    planar.regionInMultiregion c m context = .ok (if m = [c] then .equal else .component) := by
  have sc := vm.simple c h
  rw [C54_region_in_multiregion hc sc vm (List.ne_nil_of_mem h)]
  have lc := region_located hc sc
  have lm := multiregion_located hc vm
  split
  next e =>
    intro p
    refine located_eq hc lc lm ?_ ?_ p <;> ext p <;> simp [Multiregion.interior, Multiregion.pts, e]
  next e =>
    obtain ⟨d, hd, hn, -⟩ := (other_of_mem (R := fun a b : Contour K => a.interior ∩ b.interior = ∅ ∧
      ¬ SharesPiece a.pts b.pts) (fun a b h => ⟨by rw [Set.inter_comm]; exact h.1, fun k => h.2 k.symm⟩) vm.apart
      h).resolve_left e
    obtain ⟨p, hp⟩ := area_inhabited hc (a := .region d) (vm.simple d hd) .interior (by simp)
    replace hp := ((region_located hc (vm.simple d hd)).interior p).mp hp
    have pm : p ∈ Multiregion.interior m := ⟨d, hd, hp⟩
    constructor
    · intro x hx
      rcases sc.split.cover x with k | k | k
      · exact ((lm.interior x).mpr ⟨c, h, k⟩).trans ((lc.interior x).mpr k).symm
      · exact ((lm.boundary x).mpr ⟨c, h, k⟩).trans ((lc.boundary x).mpr k).symm
      · exact absurd ((lc.exterior x).mpr k) hx
    · refine ⟨p, ?_, (lm.interior p).mpr pm⟩
      rw [lc.exterior]
      rcases sc.split.cover p with k | k | k
      · exact absurd ⟨k, hp⟩ (Set.eq_empty_iff_forall_notMem.mp hn p)
      · exact absurd ⟨c, h, k⟩ (vm.split.ib p pm)
      · exact k

/-- C60: a polygon of a multipolygon is a component of it, or equals it if it is the only one. -/
theorem C60_polygon {m : Multipolygon K} (vm : m.Valid) {g : Polygon K} (h : g ∈ m.polygons)
    (ng : Neat g.edges ∨ Neat (m.polygons.flatMap Polygon.edges)) :
    planar.polygonInMultipolygon g m context = .ok (if m.polygons = [g] then .equal else .component) := by
  have sc := vm.valid g h
  rw [C54_polygon_in_multipolygon hc sc vm (List.ne_nil_of_mem h) ng]
  have lc := polygon_located hc sc
  have lm := multipolygon_located hc vm
  split
  next e =>
    intro p
    refine located_eq hc lc lm ?_ ?_ p <;> ext p <;> simp [Multipolygon.interior, Multipolygon.pts, e]
  next e =>
    obtain ⟨d, hd, hn, -⟩ := (other_of_mem (R := fun a b : Polygon K => a.interior ∩ b.interior = ∅ ∧
      ¬ SharesPiece a.pts b.pts) (fun a b h => ⟨by rw [Set.inter_comm]; exact h.1, fun k => h.2 k.symm⟩) vm.apart
      h).resolve_left e
    obtain ⟨p, hp⟩ := area_inhabited hc (a := .polygon d) (vm.valid d hd) .interior (by simp)
    replace hp := ((polygon_located hc (vm.valid d hd)).interior p).mp hp
    have pm : p ∈ m.interior := ⟨d, hd, hp⟩
    constructor
    · intro x hx
      rcases sc.split.cover x with k | k | k
      · exact ((lm.interior x).mpr ⟨g, h, k⟩).trans ((lc.interior x).mpr k).symm
      · exact ((lm.boundary x).mpr ⟨g, h, k⟩).trans ((lc.boundary x).mpr k).symm
      · exact absurd ((lc.exterior x).mpr k) hx
    · refine ⟨p, ?_, (lm.interior p).mpr pm⟩
      rw [lc.exterior]
      rcases sc.split.cover p with k | k | k
      · exact absurd ⟨k, hp⟩ (Set.eq_empty_iff_forall_notMem.mp hn p)
      · have pb : p ∈ m.pts := ⟨g, h, k⟩
        exact absurd (((lm.interior p).mpr pm).symm.trans ((lm.boundary p).mpr pb)) (by simp)
      · exact k

end

/-! ### cases -/

/-- C59 applies: from the answers for regions to those for their contours, and for the region `sameT` to a geometry
of every kind. -/
theorem C59_example : planar.contourInRegion sameT sameQ reference.context = .ok .cross ∧
    planar.contourInRegion sameQ sameH reference.context = .ok .disjoint ∧
    (∃ q ∈ [Relation.touch, .cross, .overlap], planar.contourInContour sameT sameQ reference.context = .ok q) ∧
    ∀ b ∈ someAreas, ∀ r, (Area.region sameT).relate reference.context b = .ok r →
      ∃ q ∈ r.border, (Line.contour sameT).relate reference.context b = .ok q := by
  obtain ⟨q, -, t, -, -, -, h, -⟩ := same_simple
  have k1 : planar.regionInRegion sameT sameQ reference.context = .ok .overlap := by decide +kernel
  have k2 : planar.regionInRegion sameQ sameH reference.context = .ok .cover := by decide +kernel
  refine ⟨?_, ?_, ?_, fun b hb r hr => ?_⟩
  · obtain ⟨r, x, h1, h2, h3⟩ := C59_regions ex t q
    rw [k1, Except.ok.injEq] at h1
    subst h1
    rw [h2, ← List.singleton_inj.mp h3]
  · obtain ⟨r, x, h1, h2, h3⟩ := C59_regions ex q h
    rw [k2, Except.ok.injEq] at h1
    subst h1
    rw [h2, ← List.singleton_inj.mp h3]
  · obtain ⟨r, x, h1, h2, h3⟩ := C59_contours ex t q
    rw [k1, Except.ok.injEq] at h1
    subst h1
    exact ⟨x, h3, h2⟩
  · refine C59_region ex t (someAreas_valid b hb) ?_ (someLines_suit _ (by simp [someLines]) b hb) hr
    have := someAreas_suit (.region sameQ) (by simp [someAreas]) b hb
    cases b <;> exact this

/-- For multiregions the relation is not determined: regions which touch each other in a ring. -/
theorem C59_counterexample :
    let m : Multiregion ℚ := [⟨[⟨0, 0⟩, ⟨2, 0⟩, ⟨0, 2⟩]⟩, ⟨[⟨2, 0⟩, ⟨4, 0⟩, ⟨2, 2⟩]⟩, ⟨[⟨0, 2⟩, ⟨2, 2⟩, ⟨0, 4⟩]⟩]
    let hole : Region ℚ := ⟨[⟨2, 0⟩, ⟨2, 2⟩, ⟨0, 2⟩]⟩
    let hull : Region ℚ := ⟨[⟨0, 0⟩, ⟨4, 0⟩, ⟨0, 4⟩]⟩
    let region : Region ℚ := ⟨[⟨0, 0⟩, ⟨2, 0⟩, ⟨2, 2⟩, ⟨0, 2⟩]⟩
    Multiregion.Valid m ∧
      planar.regionInMultiregion hole m reference.context = .ok .touch ∧
      planar.contourInMultiregion hole m reference.context = .ok .component ∧
      planar.regionInMultiregion hull m reference.context = .ok .encloses ∧
      planar.contourInMultiregion hull m reference.context = .ok .component ∧
      planar.regionInMultiregion region m reference.context = .ok .overlap ∧
      planar.contourInMultiregion region m reference.context = .ok .component :=
  ⟨Multiregion.valid_of_check (by decide +kernel), by decide +kernel, by decide +kernel, by decide +kernel,
    by decide +kernel, by decide +kernel, by decide +kernel⟩

/-- C60 applies to a polygon with a hole, a multiregion and a multipolygon. -/
theorem C60_example : planar.regionInPolygon sameQ sameG reference.context = .ok .encloses ∧
    planar.regionInPolygon sameH sameG reference.context = .ok .touch ∧
    planar.multiregionInPolygon [sameH] sameG reference.context = .ok .touch ∧
    planar.polygonInPolygon sameG ⟨sameQ, []⟩ reference.context = .ok .enclosed ∧
    planar.contourInPolygon sameH sameG reference.context = .ok .component ∧
    planar.regionInMultiregion sameT sameM reference.context = .ok .component ∧
    planar.polygonInMultipolygon sameG sameD reference.context = .ok .component := by
  obtain ⟨g, -, cg, -⟩ := sameG_ok
  exact ⟨C60_border ex g cg, C60_hole ex g cg (by simp [sameG]), C60_holes ex g cg (by simp [sameG]), C60_solid ex g cg,
    (C60_contour ex g cg (neat_of_check (by decide +kernel))).2 _ (by simp [sameG]),
    C60_region ex sameM_ok.1 (by simp [sameM]),
    C60_polygon ex sameD_ok.1 (by simp [sameD]) (.inl (neat_of_check (by decide +kernel)))⟩

end Orient.Props
