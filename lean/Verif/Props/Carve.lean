import Verif.Spec.Carve
import Verif.Props.Detour
import Verif.Props.Joins
import Verif.Props.LinearJoins

/-! C94: relations to a polygon, to its border and to its holes. -/

set_option linter.unusedSectionVars false

namespace Orient

variable {P : Type}

/-- The locations of a point with respect to a polygon, its border and its holes. -/
def holedTriples : List (Location × Location × Location) :=
  [(.exterior, .exterior, .exterior), (.boundary, .boundary, .exterior), (.boundary, .boundary, .boundary),
    (.interior, .interior, .exterior), (.boundary, .interior, .boundary), (.exterior, .interior, .interior)]

theorem mem_holedTriples {x b h : Location} (k : HoledLocations x b h) : (x, b, h) ∈ holedTriples := by
  revert k; unfold HoledLocations; revert x b h
  have : ∀ x ∈ allLocations, ∀ b ∈ allLocations, ∀ h ∈ allLocations,
      ((b = .exterior ∧ h = .exterior ∧ x = .exterior) ∨ (b = .boundary ∧ h ≠ .interior ∧ x = .boundary) ∨
        (b = .interior ∧ ((h = .exterior ∧ x = .interior) ∨ (h = .boundary ∧ x = .boundary) ∨
          (h = .interior ∧ x = .exterior)))) → (x, b, h) ∈ holedTriples := by decide +kernel
  exact fun {x b h} k => this x (mem_allLocations x) b (mem_allLocations b) h (mem_allLocations h) k

theorem HoledLocations.not_outside {x b h : Location} (k : HoledLocations x b h) (hb : b = .interior) (hx : x = .exterior)
    (hh : h = .exterior) : False := by
  subst hb hx hh
  simp [HoledLocations] at k

/-- The demands about the border, the holes and the polygon can be met together. -/
def consistentCarve (d e f : Demand) (l : List Location) (m : List (Location × Location × Location)) : Bool :=
  let T := (allLocations.flatMap fun q => holedTriples.map fun t => (q, t)).filter fun t =>
    d.allows t.1 t.2.2.1 && e.allows t.1 t.2.2.2 && f.allows t.1 t.2.1
  (d.needs.all fun q => T.any fun t => t.1 == q.1 && t.2.2.1 == q.2) &&
  (e.needs.all fun q => T.any fun t => t.1 == q.1 && t.2.2.2 == q.2) &&
  (f.needs.all fun q => T.any fun t => t.1 == q.1 && t.2.1 == q.2) &&
  (l.all fun q => T.any fun t => t.1 == q) && (m.all fun q => T.any fun t => t.2 == q)

theorem consistentCarve_of_met {d e f : Demand} {l : List Location} {m : List (Location × Location × Location)}
    {x b h q : P → Location} (k : ∀ p, HoledLocations (x p) (b p) (h p)) (hd : d.Met q b) (he : e.Met q h) (hf : f.Met q x)
    (hl : ∀ u ∈ l, ∃ p, q p = u) (hm : ∀ t ∈ m, ∃ p, (x p, b p, h p) = t) : consistentCarve d e f l m = true := by
  have key : ∀ p, (q p, x p, b p, h p) ∈ (allLocations.flatMap fun q => holedTriples.map fun t => (q, t)).filter fun t =>
      d.allows t.1 t.2.2.1 && e.allows t.1 t.2.2.2 && f.allows t.1 t.2.1 := by
    intro p
    simp only [List.mem_filter, List.mem_flatMap, List.mem_map, Bool.and_eq_true]
    exact ⟨⟨_, mem_allLocations _, _, mem_holedTriples (k p), rfl⟩, ⟨hd.allows p, he.allows p⟩, hf.allows p⟩
  simp only [consistentCarve, Bool.and_eq_true, List.all_eq_true, List.any_eq_true, beq_iff_eq]
  refine ⟨⟨⟨⟨?_, ?_⟩, ?_⟩, ?_⟩, ?_⟩
  · intro u hu
    obtain ⟨p, h1, h2⟩ := hd.needs u hu
    exact ⟨_, key p, h1, h2⟩
  · intro u hu
    obtain ⟨p, h1, h2⟩ := he.needs u hu
    exact ⟨_, key p, h1, h2⟩
  · intro u hu
    obtain ⟨p, h1, h2⟩ := hf.needs u hu
    exact ⟨_, key p, h1, h2⟩
  · intro u hu
    obtain ⟨p, h1⟩ := hl u hu
    exact ⟨_, key p, h1⟩
  · intro u hu
    obtain ⟨p, h1⟩ := hm u hu
    exact ⟨_, key p, h1⟩

/-- There are points on the border off the holes, on the holes off the border, inside of the polygon and in holes. -/
def someTriples : List (Location × Location × Location) :=
  [(.boundary, .boundary, .exterior), (.interior, .interior, .exterior), (.boundary, .interior, .boundary),
    (.exterior, .interior, .interior)]

theorem carve_of_consistent (a b c : Relation) (h : consistentCarve (arealDemand a) (arealDemand b) (arealDemand c)
    [.interior, .boundary] someTriples = true) :
    c ∈ a.carve b ∨ a = .component ∨ (a = .enclosed ∧ b = .composite ∧ c = .composite) ∨
      (a = .enclosed ∧ b = .encloses ∧ c = .encloses) := by
  have key : ∀ a ∈ allRelations, ∀ b ∈ allRelations, ∀ c ∈ allRelations,
      consistentCarve (arealDemand a) (arealDemand b) (arealDemand c) [.interior, .boundary] someTriples = true →
      c ∈ a.carve b ∨ a = .component ∨ (a = .enclosed ∧ b = .composite ∧ c = .composite) ∨
        (a = .enclosed ∧ b = .encloses ∧ c = .encloses) := by decide +kernel
  exact key a (mem_allRelations a) b (mem_allRelations b) c (mem_allRelations c) h

theorem carveLinear_of_consistent (a b c : Relation) (h : consistentCarve (linearDemand a) (linearDemand b)
    (linearDemand c) [.boundary] [] = true) : c ∈ a.carveLinear b ∨ (a = .component ∧ b = .component) := by
  have key : ∀ a ∈ allRelations, ∀ b ∈ allRelations, ∀ c ∈ allRelations,
      consistentCarve (linearDemand a) (linearDemand b) (linearDemand c) [.boundary] [] = true →
      c ∈ a.carveLinear b ∨ (a = .component ∧ b = .component) := by decide +kernel
  exact key a (mem_allRelations a) b (mem_allRelations b) c (mem_allRelations c) h

namespace Props

variable {K : Type} [Field K] [LinearOrder K] [IsStrictOrderedRing K]

section

variable {context : Context K} (hc : context.Exact)
include hc

theorem holedLocations {g : Polygon K} (hg : g.Valid) (p : Point K) :
    HoledLocations (planar.pointInPolygon p g context) (planar.pointInRegion p g.border context)
      (planar.pointInMultiregion p g.holes context) := by
  obtain ⟨a1, a2, a3⟩ := polygon_located hc hg
  obtain ⟨b1, b2, b3⟩ := region_located hc hg.border
  obtain ⟨c1, c2, c3⟩ := multiregion_located hc hg.holes
  obtain ⟨⟨s1, s2, s3, s4⟩, ⟨t1, t2, t3, t4⟩, u, v⟩ := hg.holed
  have e2 : p ∈ g.pts ↔ p ∈ g.border.pts ∨ p ∈ Multiregion.pts g.holes := Iff.rfl
  unfold HoledLocations
  rw [a1, a2, a3, b1, b2, b3, c2, c3, c1]
  simp only [ne_eq]
  have e1 : p ∈ g.interior ↔ p ∈ g.border.interior ∧ p ∈ Multiregion.exterior g.holes := Iff.rfl
  have e3 : p ∈ g.exterior ↔ p ∈ g.border.exterior ∨ p ∈ Multiregion.interior g.holes := Iff.rfl
  rw [e1, e2, e3]
  have := s1 p; have := s2 p; have := s3 p; have := s4 p
  have := t1 p; have := t2 p; have := t3 p; have := t4 p; have := u p; have := v p
  grind

/-- The pieces of the plane given by an areal geometry. -/
theorem area_located {a : Area K} (va : a.Valid) : ∃ G I E, Areal G I E ∧ Located (a.locate context) I (segsPts G) E := by
  rcases a with a | a | a | a <;> simp only [Area.Valid] at va
  · exact ⟨_, _, _, va.areal, region_located hc va⟩
  · exact ⟨_, _, _, va.1.areal, by rw [segsPts_edgesOf]; exact multiregion_located hc va.1⟩
  · exact ⟨_, _, _, va.areal, by rw [Polygon.segsPts_edges]; exact polygon_located hc va⟩
  · exact ⟨_, _, _, multipolygon_areal va.1, by rw [segsPts_polygonsEdges]; exact multipolygon_located hc va.1⟩

/-- Near to a point of the boundary there are points outside. -/
theorem area_outside {a b : Area K} (va : a.Valid) (vb : b.Valid) {p : Point K} (h : a.locate context p = .boundary)
    (h' : b.locate context p = .interior) : ∃ q, a.locate context q = .exterior ∧ b.locate context q = .interior := by
  obtain ⟨G, I, E, g, a1, a2, a3⟩ := area_located hc va
  obtain ⟨T, I', E', t, b1, b2, b3⟩ := area_located hc vb
  obtain ⟨q, q1, q2⟩ := ((g.near t ((a2 p).mp h)).1 ((b1 p).mp h')).2
  exact ⟨q, (a3 q).mpr q1, (b1 q).mpr q2⟩

/-- The inside of a region is on one side of a boundary which does not meet it. -/
theorem area_one_side {a : Area K} (va : a.Valid) {b : Contour K} (hb : b.Simple)
    (h : ∀ p ∈ b.interior, a.locate context p ≠ .boundary) {p q : Point K} (hp : p ∈ b.interior) (hq : q ∈ b.interior)
    (kp : a.locate context p = .interior) : a.locate context q ≠ .exterior := by
  have key : ∀ {c : Contour K}, (∀ x ∈ c.pts, a.locate context x = .boundary) → ∀ {x y}, x ∈ b.interior → y ∈ b.interior →
      (x ∈ c.interior ↔ y ∈ c.interior) := fun k x y hx hy =>
    hb.same_inside (Set.eq_empty_iff_forall_notMem.mpr fun z hz => h z hz.2 (k z hz.1)) hx hy
  intro kq
  have poly : ∀ {g : Polygon K}, (∀ x ∈ g.pts, a.locate context x = .boundary) → p ∈ g.interior → q ∈ g.exterior → False := by
    rintro g k ⟨p1, p2⟩ (k' | ⟨d, hd, k'⟩)
    · exact Contour.not_both ((key (fun x hx => k x (.inl hx)) hp hq).mp p1) k'
    · exact Contour.not_both ((key (fun x hx => k x (.inr ⟨d, hd, hx⟩)) hq hp).mp k') (p2 d hd)
  rcases a with a | a | a | a <;> simp only [Area.Valid] at va
  · obtain ⟨a1, a2, a3⟩ := region_located hc va
    exact Contour.not_both ((key (fun x hx => (a2 x).mpr hx) hp hq).mp ((a1 p).mp kp)) ((a3 q).mp kq)
  · obtain ⟨a1, a2, a3⟩ := multiregion_located hc va.1
    obtain ⟨d, hd, k⟩ := (a1 p).mp kp
    exact Contour.not_both ((key (fun x hx => (a2 x).mpr ⟨d, hd, hx⟩) hp hq).mp k) ((a3 q).mp kq d hd)
  · obtain ⟨a1, a2, a3⟩ := polygon_located hc va
    exact poly (fun x hx => (a2 x).mpr hx) ((a1 p).mp kp) ((a3 q).mp kq)
  · obtain ⟨a1, a2, a3⟩ := multipolygon_located hc va.1
    obtain ⟨g, hg, k⟩ := (a1 p).mp kp
    exact poly (fun x hx => (a2 x).mpr ⟨g, hg, hx⟩) k ((a3 q).mp kq g hg)

omit hc in
theorem not_sharesPiece_holes {g : Polygon K} (hg : g.Valid) {S : Set (Point K)} (h : SharesPiece S S) (hb : S ⊆ g.border.pts) :
    ¬ S ⊆ Multiregion.pts g.holes := by
  intro k
  obtain ⟨u, hu, k1, -⟩ := h
  rw [← segsPts_edgesOf] at k
  obtain ⟨s, hs, b, hb', j1, j2, j3⟩ := exists_germ_of_subset hu (k1.trans k)
  obtain ⟨d, hd, hs⟩ := List.mem_flatMap.mp hs
  refine hg.apart d hd ⟨⟨u.start, b⟩, hb'.symm, ?_, ?_⟩
  · exact ((Segment.pts_subset u.start_mem j1).trans k1).trans hb
  · exact (Segment.pts_subset j2 j3).trans fun x hx => ⟨s, hs, hx⟩

theorem someTriples_met {g : Polygon K} (hg : g.Valid) (nh : g.holes ≠ []) : ∀ t ∈ someTriples, ∃ p,
    (planar.pointInPolygon p g context, planar.pointInRegion p g.border context,
      planar.pointInMultiregion p g.holes context) = t := by
  obtain ⟨b1, b2, b3⟩ := region_located hc hg.border
  obtain ⟨c1, c2, c3⟩ := multiregion_located hc hg.holes
  have loc := holedLocations hc hg
  simp only [someTriples, List.mem_cons, List.not_mem_nil, or_false, forall_eq_or_imp, forall_eq]
  obtain ⟨d, hd⟩ := List.exists_mem_of_ne_nil _ nh
  refine ⟨?_, ?_, ?_, ?_⟩
  · obtain ⟨p, p1, p2⟩ := Set.not_subset.mp (not_sharesPiece_holes hg hg.border.sharesPiece le_rfl)
    refine ⟨p, ?_⟩
    have := loc p
    have k1 := (b2 p).mpr p1
    have k2 := mt (c2 p).mp p2
    unfold HoledLocations at this
    revert this k1 k2
    generalize planar.pointInPolygon p g context = x, planar.pointInRegion p g.border context = b,
      planar.pointInMultiregion p g.holes context = h
    cases x <;> cases b <;> cases h <;> simp
  · obtain ⟨p, hp⟩ := area_inhabited hc (a := .polygon g) hg .interior (by simp)
    have := loc p
    simp only [Area.locate] at hp
    unfold HoledLocations at this
    exact ⟨p, by grind⟩
  · obtain ⟨p, p1, p2⟩ := hg.hole_meets hd
    have := loc p
    have k1 := (b1 p).mpr p2
    have k2 := (c2 p).mpr ⟨d, hd, p1⟩
    unfold HoledLocations at this
    exact ⟨p, by grind⟩
  · obtain ⟨p, p1⟩ := (hg.holes.simple d hd).interior_nonempty
    have := loc p
    have k2 := (c1 p).mpr ⟨d, hd, p1⟩
    unfold HoledLocations at this
    exact ⟨p, by grind⟩

/-- The table for areal geometries. -/
theorem carve_locations {a : Area K} {g : Polygon K} (va : a.Valid) (hg : g.Valid) (nh : g.holes ≠ []) {r q s : Relation}
    (k1 : ArealLocations (a.locate context) ((Area.region g.border).locate context) r)
    (k2 : ArealLocations (a.locate context) ((Area.multiregion g.holes).locate context) q)
    (k3 : ArealLocations (a.locate context) (fun p => planar.pointInPolygon p g context) s) : s ∈ r.carve q := by
  have vb : (Area.region g.border : Area K).Valid := hg.border
  have loc := holedLocations hc hg
  rcases carve_of_consistent _ _ _ (consistentCarve_of_met loc k1.met k2.met k3.met (area_inhabited hc va)
    (someTriples_met hc hg nh)) with k | rfl | ⟨rfl, rfl, rfl⟩ | ⟨rfl, rfl, rfl⟩
  · exact k
  · exfalso
    obtain ⟨k, x, x1, x2⟩ := k1
    obtain ⟨y, hy⟩ := area_inhabited hc va .interior (by simp)
    obtain ⟨b1, -, -⟩ := region_located hc hg.border
    refine area_one_side hc va hg.border (fun p hp e => ?_) ((b1 y).mp ?_) ((b1 x).mp x2) hy x1
    · have := k p (by rw [e]; simp)
      rw [e] at this
      exact absurd (this.symm.trans ((b1 p).mpr hp)) (by simp)
    · have := k y (by rw [hy]; simp)
      rw [hy] at this
      exact this
  · exfalso
    obtain ⟨-, -, ⟨x, x1, x2⟩, -⟩ := k1
    obtain ⟨y, y1, y2⟩ := area_outside hc va vb x1 x2
    refine (loc y).not_outside y2 ?_ ?_
    · by_contra k
      exact k ((k3.1 y k).symm.trans y1)
    · by_contra k
      exact k ((k2.1 y k).symm.trans y1)
  · exfalso
    obtain ⟨-, -, ⟨x, x1, x2⟩, -⟩ := k1
    obtain ⟨y, y1, y2⟩ := area_outside hc va vb x1 x2
    have out : ∀ {l : Point K → Location}, ArealLocations (a.locate context) l .encloses → l y = .exterior := by
      rintro l ⟨k, k', -⟩
      have k := k y
      have k' := k' y
      rw [y1] at k k'
      revert k k'
      cases l y <;> simp
    exact (loc y).not_outside y2 (out k3) (out k2)

/-- C94: the relation to a polygon, given in any way, is restricted by the relations to its border and its holes. -/
theorem C94_areas {a u : Area K} {g : Polygon K} (va : a.Valid) (hg : g.Valid) (nh : g.holes ≠ []) (vu : u.Valid)
    (h1 : a.Suits (.region g.border)) (h2 : a.Suits (.multiregion g.holes)) (h3 : a.Suits u)
    (hu : ∀ p, u.locate context p = planar.pointInPolygon p g context) {r q : Relation}
    (k1 : a.relate context (.region g.border) = .ok r) (k2 : a.relate context (.multiregion g.holes) = .ok q) :
    ∃ s ∈ r.carve q, a.relate context u = .ok s := by
  obtain ⟨s, k3⟩ := area_relate_total hc va vu h3
  refine ⟨s, ?_, k3⟩
  rw [C54_areas hc va (by exact hg.border) h1] at k1
  rw [C54_areas hc va (by exact ⟨hg.holes, nh⟩) h2] at k2
  rw [C54_areas hc va vu h3, funext hu] at k3
  exact carve_locations hc va hg nh k1 k2 k3

/-- C94: the relation of a polygon, given in any way, is restricted by the relations of its border and its holes. -/
theorem C94_left {a u : Area K} {g : Polygon K} (va : a.Valid) (hg : g.Valid) (nh : g.holes ≠ []) (vu : u.Valid)
    (h1 : (Area.region g.border).Suits a) (h2 : (Area.multiregion g.holes).Suits a) (h3 : u.Suits a)
    (hu : ∀ p, u.locate context p = planar.pointInPolygon p g context) {r q : Relation}
    (k1 : (Area.region g.border).relate context a = .ok r) (k2 : (Area.multiregion g.holes).relate context a = .ok q) :
    ∃ s ∈ r.complement.carve q.complement, u.relate context a = .ok s.complement := by
  obtain ⟨s, k3⟩ := area_relate_total hc vu va h3
  refine ⟨s.complement, ?_, by rw [complement_complement]; exact k3⟩
  rw [C54_areas hc (by exact hg.border) va h1, ← complement_complement r, arealLocations_complement] at k1
  rw [C54_areas hc (by exact ⟨hg.holes, nh⟩) va h2, ← complement_complement q, arealLocations_complement] at k2
  rw [C54_areas hc vu va h3, ← complement_complement s, arealLocations_complement, funext hu] at k3
  exact carve_locations hc va hg nh k1 k2 k3

/-- C94: the same for linear geometries. -/
theorem C94_lines {a : Line K} {u : Area K} {g : Polygon K} (va : a.Valid) (hg : g.Valid) (nh : g.holes ≠ [])
    (vu : u.Valid) (h1 : a.Suits (.region g.border)) (h2 : a.Suits (.multiregion g.holes)) (h3 : a.Suits u)
    (hu : ∀ p, u.locate context p = planar.pointInPolygon p g context) {r q : Relation}
    (k1 : a.relate context (.region g.border) = .ok r) (k2 : a.relate context (.multiregion g.holes) = .ok q) :
    ∃ s ∈ r.carveLinear q, a.relate context u = .ok s := by
  have vb : (Area.region g.border : Area K).Valid := hg.border
  have vh : (Area.multiregion g.holes : Area K).Valid := ⟨hg.holes, nh⟩
  obtain ⟨s, k3⟩ := line_relate_total hc va vu h3
  refine ⟨s, ?_, k3⟩
  rw [C54_lines hc va vb h1] at k1
  rw [C54_lines hc va vh h2] at k2
  rw [C54_lines hc va vu h3, funext hu] at k3
  rcases carveLinear_of_consistent _ _ _ (consistentCarve_of_met (holedLocations hc hg) (k1.met (line_not_interior a))
    (k2.met (line_not_interior a)) (k3.met (line_not_interior a)) (line_inhabited hc va) (by simp)) with k | ⟨rfl, rfl⟩
  · exact k
  · exfalso
    obtain ⟨-, b2, -⟩ := region_located hc hg.border
    obtain ⟨-, c2, -⟩ := multiregion_located hc hg.holes
    have sh : SharesPiece (linePts a) (linePts a) := by
      rcases a with a | a | a <;> simp only [Line.Valid] at va
      · exact ⟨a, va, le_rfl, le_rfl⟩
      · exact sharesPiece_of_subset va.1.1 va.2 le_rfl
      · exact va.sharesPiece
    exact not_sharesPiece_holes hg sh (fun x hx => (b2 x).mp (k1 x ((line_located hc a x).mpr hx)))
      fun x hx => (c2 x).mp (k2 x ((line_located hc a x).mpr hx))

theorem single_locate {g : Polygon K} (hg : g.Valid) (p : Point K) :
    (Area.multipolygon ⟨[g]⟩).locate context p = planar.pointInPolygon p g context := by
  obtain ⟨v, e1, e2, e3, -⟩ := single_multipolygon hg
  obtain ⟨a1, a2, a3⟩ := multipolygon_located hc v
  obtain ⟨b1, b2, b3⟩ := polygon_located hc hg
  rw [e1] at a1; rw [e2] at a2; rw [e3] at a3
  have k1 := (a1 p).trans (b1 p).symm
  have k2 := (a2 p).trans (b2 p).symm
  simp only [Area.locate]
  revert k1 k2
  generalize planar.pointInMultipolygon p ⟨[g]⟩ context = x, planar.pointInPolygon p g context = y
  cases x <;> cases y <;> simp

/-- C94: a region and a polygon given as a multipolygon, without conditions. -/
theorem C94_region {a : Region K} {g : Polygon K} (ha : Contour.Simple a) (hg : g.Valid) (nh : g.holes ≠ []) : ∃ r q s,
    planar.regionInRegion a g.border context = .ok r ∧ planar.regionInMultiregion a g.holes context = .ok q ∧
      planar.regionInMultipolygon a ⟨[g]⟩ context = .ok s ∧ s ∈ r.carve q := by
  have vh : (Area.multiregion g.holes : Area K).Valid := ⟨hg.holes, nh⟩
  have vu : (Area.multipolygon ⟨[g]⟩ : Area K).Valid := ⟨(single_multipolygon hg).1, by simp⟩
  obtain ⟨r, hr⟩ := area_relate_total hc (a := .region a) (b := .region g.border) ha hg.border trivial
  obtain ⟨q, hq⟩ := area_relate_total hc (a := .region a) ha vh trivial
  obtain ⟨s, hs, k⟩ := C94_areas hc (a := .region a) ha hg nh vu trivial trivial trivial (single_locate hc hg) hr hq
  exact ⟨r, q, s, hr, hq, k, hs⟩

/-- C94: an areal geometry and a polygon. -/
theorem C94_polygon {a : Area K} {g : Polygon K} (va : a.Valid) (hg : g.Valid) (nh : g.holes ≠ [])
    (h1 : a.Suits (.region g.border)) (h2 : a.Suits (.multiregion g.holes)) (h3 : a.Suits (.polygon g)) {r q : Relation}
    (k1 : a.relate context (.region g.border) = .ok r) (k2 : a.relate context (.multiregion g.holes) = .ok q) :
    ∃ s ∈ r.carve q, a.relate context (.polygon g) = .ok s :=
  C94_areas hc va hg nh (u := .polygon g) hg h1 h2 h3 (fun _ => rfl) k1 k2

/-- C94: a polygon and an areal geometry. -/
theorem C94_polygon_left {a : Area K} {g : Polygon K} (va : a.Valid) (hg : g.Valid) (nh : g.holes ≠ [])
    (h1 : (Area.region g.border).Suits a) (h2 : (Area.multiregion g.holes).Suits a) (h3 : (Area.polygon g).Suits a)
    {r q : Relation} (k1 : (Area.region g.border).relate context a = .ok r)
    (k2 : (Area.multiregion g.holes).relate context a = .ok q) :
    ∃ s ∈ r.complement.carve q.complement, (Area.polygon g).relate context a = .ok s.complement :=
  C94_left hc va hg nh (u := .polygon g) hg h1 h2 h3 (fun _ => rfl) k1 k2

/-- C94: a linear geometry and a polygon. -/
theorem C94_line_polygon {a : Line K} {g : Polygon K} (va : a.Valid) (hg : g.Valid) (nh : g.holes ≠ [])
    (h1 : a.Suits (.region g.border)) (h2 : a.Suits (.multiregion g.holes)) (h3 : a.Suits (.polygon g)) {r q : Relation}
    (k1 : a.relate context (.region g.border) = .ok r) (k2 : a.relate context (.multiregion g.holes) = .ok q) :
    ∃ s ∈ r.carveLinear q, a.relate context (.polygon g) = .ok s :=
  C94_lines hc va hg nh (u := .polygon g) hg h1 h2 h3 (fun _ => rfl) k1 k2

end

/-- A square with a square hole. -/
def carvedPolygon : Polygon ℚ :=
  ⟨⟨[⟨1, 1⟩, ⟨8, 1⟩, ⟨8, 8⟩, ⟨1, 8⟩]⟩, [⟨[⟨3, 3⟩, ⟨6, 3⟩, ⟨6, 6⟩, ⟨3, 6⟩]⟩]⟩

/-- Regions with their relations to the border, the hole and the polygon. -/
def carvedRegions : List (Region ℚ × Relation × Relation × Relation) :=
  [(⟨[⟨3, 1⟩, ⟨5, 1⟩, ⟨5, 3⟩, ⟨3, 3⟩]⟩, .enclosed, .touch, .enclosed),
    (⟨[⟨8, 1⟩, ⟨8, 8⟩, ⟨1, 8⟩, ⟨1, 1⟩]⟩, .equal, .cover, .encloses),
    (⟨[⟨1, 5⟩, ⟨1, 2⟩, ⟨9, 2⟩, ⟨9, 5⟩]⟩, .overlap, .overlap, .overlap),
    (⟨[⟨6, 6⟩, ⟨3, 6⟩, ⟨3, 3⟩, ⟨6, 3⟩]⟩, .within, .equal, .touch),
    (⟨[⟨2, 6⟩, ⟨3, 6⟩, ⟨3, 7⟩, ⟨2, 7⟩]⟩, .within, .touch, .enclosed),
    (⟨[⟨4, 4⟩, ⟨5, 4⟩, ⟨5, 5⟩, ⟨4, 5⟩]⟩, .within, .within, .disjoint)]

theorem carvedRegions_simple : ∀ t ∈ carvedRegions, reference.isSimple t.1 = true := by decide +kernel

theorem carvedRegions_answers : carvedRegions.map (fun t =>
      ((planar.regionInRegion t.1 carvedPolygon.border (reference.context : Context ℚ)).toOption,
        (planar.regionInMultiregion t.1 carvedPolygon.holes (reference.context : Context ℚ)).toOption,
        (planar.regionInMultipolygon t.1 ⟨[carvedPolygon]⟩ (reference.context : Context ℚ)).toOption)) =
    carvedRegions.map fun t => (some t.2.1, some t.2.2.1, some t.2.2.2) := by decide +kernel

/-- C94 applies to the polygon and these regions. -/
theorem C94_example : carvedPolygon.Valid ∧ carvedPolygon.holes ≠ [] ∧ ∀ t ∈ carvedRegions, Contour.Simple t.1 ∧
    (planar.regionInRegion t.1 carvedPolygon.border (reference.context : Context ℚ)).toOption = some t.2.1 ∧
    (planar.regionInMultiregion t.1 carvedPolygon.holes (reference.context : Context ℚ)).toOption = some t.2.2.1 ∧
    (planar.regionInMultipolygon t.1 ⟨[carvedPolygon]⟩ (reference.context : Context ℚ)).toOption = some t.2.2.2 := by
  refine ⟨Polygon.valid_of_check (by decide +kernel), by simp [carvedPolygon], fun t ht =>
    ⟨Contour.simple_of_check (carvedRegions_simple t ht), ?_⟩⟩
  have := List.map_inj_left.mp carvedRegions_answers t ht
  rwa [Prod.mk.injEq, Prod.mk.injEq] at this

theorem carvedPolygon_ok : carvedPolygon.Connected ∧ Neat carvedPolygon.edges ∧
    Neat (carvedPolygon.holes.flatMap Contour.edgeList) :=
  ⟨C94_example.1.connected ⟨_, .refl _, reference.isLoose_spec
    (m := [(carvedPolygon.border, ⟨0, 0⟩), (⟨[⟨3, 3⟩, ⟨6, 3⟩, ⟨6, 6⟩, ⟨3, 6⟩]⟩, ⟨0, 0⟩)]) (by decide +kernel)⟩,
    neat_of_check (by decide +kernel), neat_of_check (by decide +kernel)⟩

/-- C94: the relation to the polygon is not determined: of three multiregions which overlap with the border and with the
hole, one is disjoint with the polygon, one touches it and one overlaps with it. -/
theorem C94_example_multiregions :
    let far : Region ℚ := ⟨[⟨9, 0⟩, ⟨10, 0⟩, ⟨10, 1⟩, ⟨9, 1⟩]⟩
    let l : List (Multiregion ℚ × Relation) := [([far, ⟨[⟨4, 4⟩, ⟨5, 4⟩, ⟨5, 5⟩]⟩], .disjoint),
      ([⟨[⟨8, 1⟩, ⟨9, 1⟩, ⟨9, 2⟩]⟩, ⟨[⟨4, 4⟩, ⟨5, 4⟩, ⟨5, 5⟩]⟩], .touch), ([far, ⟨[⟨4, 4⟩, ⟨7, 4⟩, ⟨7, 5⟩, ⟨4, 5⟩]⟩], .overlap)]
    ∀ t ∈ l, Multiregion.Valid t.1 ∧ (Area.multiregion t.1).Suits (.polygon carvedPolygon) ∧
      (Area.multiregion t.1).relate (reference.context : Context ℚ) (.region carvedPolygon.border) = .ok .overlap ∧
      (Area.multiregion t.1).relate (reference.context : Context ℚ) (.multiregion carvedPolygon.holes) = .ok .overlap ∧
      (Area.multiregion t.1).relate (reference.context : Context ℚ) (.polygon carvedPolygon) = .ok t.2 := by
  intro far l
  have key : ∀ t ∈ l, reference.isMultiregion t.1 = true ∧
      (Area.multiregion t.1).relate (reference.context : Context ℚ) (.region carvedPolygon.border) = .ok .overlap ∧
      (Area.multiregion t.1).relate (reference.context : Context ℚ) (.multiregion carvedPolygon.holes) = .ok .overlap ∧
      (Area.multiregion t.1).relate (reference.context : Context ℚ) (.polygon carvedPolygon) = .ok t.2 := by decide +kernel
  exact fun t ht => ⟨Multiregion.valid_of_check (key t ht).1, carvedPolygon_ok.1, (key t ht).2⟩

/-- C94 applies to a multisegment which goes from the hole to the outside of the border, and to one in the polygon which
meets the hole. -/
theorem C94_example_lines :
    let s : Line ℚ := .multisegment ⟨[⟨⟨4, 4⟩, ⟨4, 9⟩⟩]⟩
    let t : Line ℚ := .multisegment ⟨[⟨⟨2, 4⟩, ⟨3, 4⟩⟩, ⟨⟨3, 4⟩, ⟨3, 7⟩⟩]⟩
    s.Valid ∧ t.Valid ∧ t.Suits (.region carvedPolygon.border) ∧ t.Suits (.multiregion carvedPolygon.holes) ∧
      t.Suits (.polygon carvedPolygon) ∧
      s.relate (reference.context : Context ℚ) (.region carvedPolygon.border) = .ok .cross ∧
      s.relate (reference.context : Context ℚ) (.multiregion carvedPolygon.holes) = .ok .cross ∧
      s.relate (reference.context : Context ℚ) (.polygon carvedPolygon) = .ok .cross ∧
      t.relate (reference.context : Context ℚ) (.region carvedPolygon.border) = .ok .within ∧
      t.relate (reference.context : Context ℚ) (.multiregion carvedPolygon.holes) = .ok .touch ∧
      t.relate (reference.context : Context ℚ) (.polygon carvedPolygon) = .ok .enclosed := by
  intro s t
  have off : ∀ {p : Point ℚ}, planar.pointInMultisegment p ⟨[⟨⟨2, 4⟩, ⟨3, 4⟩⟩, ⟨⟨3, 4⟩, ⟨3, 7⟩⟩]⟩
      (reference.context : Context ℚ) = .exterior → p ∉ segsPts [⟨⟨2, 4⟩, ⟨3, 4⟩⟩, ⟨⟨3, 4⟩, ⟨3, 7⟩⟩] := fun {p} h k => by
    have := (multisegment_located reference.context_exact ⟨[⟨⟨2, 4⟩, ⟨3, 4⟩⟩, ⟨⟨3, 4⟩, ⟨3, 7⟩⟩]⟩ p).mpr k
    rw [h] at this
    cases this
  refine ⟨⟨segmentsValid_of_check (by decide +kernel), by simp⟩, ⟨segmentsValid_of_check (by decide +kernel), by simp⟩,
    fun h => off (p := ⟨1, 1⟩) (by decide +kernel) (h ?_), ⟨carvedPolygon_ok.2.2, fun c hc h =>
      off (p := ⟨6, 6⟩) (by decide +kernel) (h ?_)⟩, ⟨carvedPolygon_ok.2.1, fun h =>
      off (p := ⟨1, 1⟩) (by decide +kernel) (h ?_)⟩, ?_, ?_, ?_, ?_, ?_, ?_⟩
  · exact (contour_located reference.context_exact _ _).mp (by decide +kernel)
  · simp only [carvedPolygon, List.mem_singleton] at hc
    subst hc
    exact (contour_located reference.context_exact _ _).mp (by decide +kernel)
  · exact .inl ((contour_located reference.context_exact _ _).mp (by decide +kernel))
  all_goals decide +kernel

/-- C94 applies to polygons on the left: the border of one overlaps with the border of another one, its hole is within it,
and the polygons overlap. -/
theorem C94_example_left :
    let a : Area ℚ := .multipolygon ⟨[⟨⟨[⟨2, 2⟩, ⟨9, 2⟩, ⟨9, 9⟩, ⟨2, 9⟩]⟩, []⟩]⟩
    a.Valid ∧ (Area.polygon carvedPolygon).Suits a ∧
      (Area.region carvedPolygon.border).relate (reference.context : Context ℚ) a = .ok .overlap ∧
      (Area.multiregion carvedPolygon.holes).relate (reference.context : Context ℚ) a = .ok .within ∧
      (Area.polygon carvedPolygon).relate (reference.context : Context ℚ) a = .ok .overlap :=
  ⟨⟨Multipolygon.valid_of_check (by decide +kernel), by simp⟩, .inl carvedPolygon_ok.2.1, by decide +kernel,
    by decide +kernel, by decide +kernel⟩

end Props

end Orient
