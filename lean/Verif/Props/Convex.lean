import Verif.Lemmas.Convex
import Verif.Props.Borders
import Verif.Props.CompositionExamples

/-! C61, C62, C63, C64: convex regions, lines between geometries and hulls. -/

set_option linter.unusedSectionVars false

namespace Orient.Props

variable {K : Type} [Field K] [LinearOrder K] [IsStrictOrderedRing K]

/-! ### which points the relations have to be tested for -/

/-- The endpoints and vertices of a linear geometry. -/
def Line.nodes : Line K → List (Point K)
  | .segment s => [s.start, s.finish]
  | .multisegment m => m.segments.flatMap fun s => [s.start, s.finish]
  | .contour c => c.vertices

/-- The outer contours of an areal geometry. -/
def Area.borders : Area K → List (Contour K)
  | .region c => [c]
  | .multiregion m => m
  | .polygon g => [g.border]
  | .multipolygon m => m.polygons.map Polygon.border

/-- The vertices of the outer contours of an areal geometry. -/
def Area.nodes (a : Area K) : List (Point K) := a.borders.flatMap Contour.vertices

theorem convex_side {c : Contour K} (h : c.Convex) :
    ∃ σ : K, σ ≠ 0 ∧ ∀ e ∈ c.edgeList, ∀ v ∈ c.vertices, 0 ≤ sideOf σ e v := by
  rcases h with h | h
  · exact ⟨1, one_ne_zero, fun e he v hv => by simpa [sideOf] using h e he v hv⟩
  · exact ⟨-1, by simp, fun e he v hv => by simpa [sideOf] using h e he v hv⟩

/-- Segments between points of a convex region. -/
theorem convex_segment {c : Contour K} (hs : c.Simple) (h : c.Convex) {s : Segment K} :
    (s.start ∉ c.exterior → s.finish ∉ c.exterior → ∀ p ∈ s.pts, p ∉ c.exterior) ∧
    (s.start ∈ c.interior → s.finish ∉ c.exterior → ∀ p ∈ s.pts, p ≠ s.finish → p ∈ c.interior) ∧
    (s.start ∈ c.interior → s.finish ∈ c.interior → ∀ p ∈ s.pts, p ∈ c.interior) := by
  obtain ⟨σ, hσ, k⟩ := convex_side h
  simp only [(convex_locates hs hσ k _).1, (convex_locates hs hσ k _).2.2, not_exists, not_and, not_lt]
  refine ⟨?_, ?_, ?_⟩
  · rintro h1 h2 p ⟨t, t0, t1, rfl⟩ e he
    rw [sideOf_lerp]
    have := mul_nonneg (sub_nonneg.mpr t1) (h1 e he)
    have := mul_nonneg t0 (h2 e he)
    linarith
  · rintro h1 h2 p ⟨t, t0, t1, rfl⟩ hn e he
    rw [sideOf_lerp]
    have t1 : t < 1 := lt_of_le_of_ne t1 fun e => hn (by rw [e, lerp_one])
    have := mul_pos (sub_pos.mpr t1) (h1 e he)
    have := mul_nonneg t0 (h2 e he)
    linarith
  · rintro h1 h2 p ⟨t, t0, t1, rfl⟩ e he
    rw [sideOf_lerp]
    rcases t0.eq_or_lt with rfl | t0
    · simpa using h1 e he
    · have := mul_nonneg (sub_nonneg.mpr t1) (h1 e he).le
      have := mul_pos t0 (h2 e he)
      linarith

section

variable {context : Context K} (hc : context.Exact)

include hc

/-- C61: where a point is located with respect to a counterclockwise convex region is decided by the sides of the
lines of the edges. -/
theorem C61_left {c : Contour K} (hs : c.Simple) (h : c.ConvexLeft) (p : Point K) :
    (planar.pointInRegion p c context = .interior ↔ ∀ e ∈ c.edgeList, 0 < cross e.start e.finish p) ∧
    (planar.pointInRegion p c context = .boundary ↔ (∀ e ∈ c.edgeList, 0 ≤ cross e.start e.finish p) ∧
      ∃ e ∈ c.edgeList, cross e.start e.finish p = 0) ∧
    (planar.pointInRegion p c context = .exterior ↔ ∃ e ∈ c.edgeList, cross e.start e.finish p < 0) := by
  have l := region_located hc hs
  have k := convex_locates hs (σ := 1) one_ne_zero (fun e he v hv => by simpa [sideOf] using h e he v hv) p
  simp only [sideOf, one_mul] at k
  rw [l.interior, l.boundary, l.exterior]
  exact k

/-- C61: the same for clockwise convex regions. -/
theorem C61_right {c : Contour K} (hs : c.Simple) (h : c.ConvexRight) (p : Point K) :
    (planar.pointInRegion p c context = .interior ↔ ∀ e ∈ c.edgeList, cross e.start e.finish p < 0) ∧
    (planar.pointInRegion p c context = .boundary ↔ (∀ e ∈ c.edgeList, cross e.start e.finish p ≤ 0) ∧
      ∃ e ∈ c.edgeList, cross e.start e.finish p = 0) ∧
    (planar.pointInRegion p c context = .exterior ↔ ∃ e ∈ c.edgeList, 0 < cross e.start e.finish p) := by
  have l := region_located hc hs
  have k := convex_locates hs (σ := -1) (by simp) (fun e he v hv => by simpa [sideOf] using h e he v hv) p
  simp only [sideOf, neg_mul, one_mul, Left.neg_pos_iff, Left.nonneg_neg_iff, neg_eq_zero, Left.neg_neg_iff] at k
  rw [l.interior, l.boundary, l.exterior]
  exact k

/-- C61: points between points of a convex region. -/
theorem C61_between {c : Contour K} (hs : c.Simple) (h : c.Convex) {a b p : Point K}
    (ha : planar.pointInRegion a c context ≠ .exterior) (hb : planar.pointInRegion b c context ≠ .exterior)
    (hp : planar.pointInSegment p ⟨a, b⟩ context = .boundary) :
    planar.pointInRegion p c context ≠ .exterior ∧
    (planar.pointInRegion a c context = .interior → p ≠ b → planar.pointInRegion p c context = .interior) := by
  have l := region_located hc hs
  rw [segment_located hc] at hp
  simp only [ne_eq, l.interior, l.exterior] at *
  obtain ⟨k1, k2, -⟩ := convex_segment hs h (s := ⟨a, b⟩)
  exact ⟨k1 ha hb p hp, fun h' hn => k2 h' hb p hp hn⟩

/-! ### relations to convex regions -/

omit hc in
theorem line_nodes (l : Line K) : (∀ p ∈ l.nodes, p ∈ linePts l) ∧
    ∀ p ∈ linePts l, ∃ s : Segment K, s.start ∈ l.nodes ∧ s.finish ∈ l.nodes ∧ p ∈ s.pts := by
  rcases l with s | m | c
  · simp only [Line.nodes, linePts]
    exact ⟨by simp [s.start_mem, s.finish_mem], fun p hp => ⟨s, by simp, by simp, hp⟩⟩
  · simp only [Line.nodes, linePts]
    constructor
    · intro p hp
      obtain ⟨s, hs, hp⟩ := List.mem_flatMap.mp hp
      refine ⟨s, hs, ?_⟩
      rcases List.mem_pair.mp hp with rfl | rfl
      · exact s.start_mem
      · exact s.finish_mem
    · rintro p ⟨s, hs, hp⟩
      exact ⟨s, List.mem_flatMap.mpr ⟨s, hs, by simp⟩, List.mem_flatMap.mpr ⟨s, hs, by simp⟩, hp⟩
  · simp only [Line.nodes, linePts]
    refine ⟨fun p hp => Contour.vertex_mem_pts hp, ?_⟩
    rintro p ⟨s, hs, hp⟩
    exact ⟨s, Contour.start_mem_vertices hs, Contour.finish_mem_vertices hs, hp⟩

theorem area_borders {a : Area K} (va : a.Valid) : (∀ b ∈ a.borders, b.Simple) ∧
    (∀ b ∈ a.borders, ∀ p ∈ b.pts, a.locate context p = .boundary) ∧
    (∀ p, a.locate context p ≠ .exterior → ∃ b ∈ a.borders, p ∈ b.interior ∨ p ∈ b.pts) ∧
    (∀ c : Contour K, c.Simple → ∀ p ∈ c.pts, a.locate context p = .interior →
      ∃ q ∈ c.exterior, a.locate context q = .interior) ∧
    ∀ p, a.locate context p = .interior → ∃ b ∈ a.borders, p ∈ b.interior := by
  have pg : ∀ {g : Polygon K}, g.Valid → ∀ p, p ∉ g.exterior → p ∈ g.border.interior ∨ p ∈ g.border.pts := by
    intro g vg p hp
    rcases vg.border.split.cover p with h | h | h
    · exact .inl h
    · exact .inr h
    · exact absurd (.inl h) hp
  rcases a with a | a | a | a <;> simp only [Area.Valid] at va <;> simp only [Area.borders, Area.locate]
  · have l := region_located hc va
    simp only [l.interior, l.boundary, l.exterior, ne_eq, List.mem_singleton, forall_eq, exists_eq_left]
    refine ⟨va, fun p hp => hp, fun p hp => ?_, fun c hs p hp h => ?_, fun p hp => hp⟩
    · rcases va.split.cover p with h | h | h
      · exact .inl h
      · exact .inr h
      · exact absurd h hp
    · exact ((hs.areal.near va.areal hp).1 h).2
  · have l := multiregion_located hc va.1
    simp only [l.interior, l.boundary, l.exterior, ne_eq]
    refine ⟨va.1.simple, fun b hb p hp => ⟨b, hb, hp⟩, fun p hp => ?_, fun c hs p hp h => ?_, fun p hp => hp⟩
    · rcases va.1.split.cover p with ⟨b, hb, h⟩ | ⟨b, hb, h⟩ | h
      · exact ⟨b, hb, .inl h⟩
      · exact ⟨b, hb, .inr h⟩
      · exact absurd h hp
    · exact ((hs.areal.near va.1.areal hp).1 h).2
  · have l := polygon_located hc va
    simp only [l.interior, l.boundary, l.exterior, ne_eq, List.mem_singleton, forall_eq, exists_eq_left]
    refine ⟨va.border, fun p hp => .inl hp, pg va, fun c hs p hp h => ?_, fun p hp => hp.1⟩
    exact ((hs.areal.near va.areal hp).1 h).2
  · have l := multipolygon_located hc va.1
    simp only [l.interior, l.boundary, l.exterior, ne_eq, List.mem_map, forall_exists_index, and_imp,
      forall_apply_eq_imp_iff₂]
    refine ⟨fun g hg => (va.1.valid g hg).border, fun g hg p hp => ⟨g, hg, .inl hp⟩, fun p hp => ?_, ?_, ?_⟩
    · simp only [Multipolygon.exterior, Set.mem_ofPred_eq, not_forall] at hp
      obtain ⟨g, hg, hp⟩ := hp
      exact ⟨_, ⟨g, hg, rfl⟩, pg (va.1.valid g hg) p hp⟩
    · rintro c hs p hp ⟨g, hg, h⟩
      obtain ⟨q, h1, h2⟩ := ((hs.areal.near (va.1.valid g hg).areal hp).1 h).2
      exact ⟨q, h1, g, hg, h2⟩
    · rintro p ⟨g, hg, h⟩
      exact ⟨_, ⟨g, hg, rfl⟩, h.1⟩

omit hc in
/-- Regions with vertices in a convex region. -/
theorem convex_contour {b c : Contour K} (hb : b.Simple) (hs : c.Simple) (h : c.Convex) :
    ((∀ v ∈ b.vertices, v ∉ c.exterior) → ∀ p, p ∈ b.interior ∨ p ∈ b.pts → p ∉ c.exterior) ∧
    ((∀ v ∈ b.vertices, v ∈ c.interior) → ∀ p, p ∈ b.interior ∨ p ∈ b.pts → p ∈ c.interior) := by
  have part : (∀ v ∈ b.vertices, v ∉ c.exterior) → ∀ p, p ∈ b.interior ∨ p ∈ b.pts → p ∉ c.exterior := by
    intro k
    have on : ∀ p ∈ b.pts, p ∉ c.exterior := by
      rintro p ⟨s, hm, hp⟩
      exact (convex_segment hs h).1 (k _ (Contour.start_mem_vertices hm)) (k _ (Contour.finish_mem_vertices hm)) p hp
    rintro p (hp | hp) hx
    · obtain ⟨q, q1, q2⟩ := hb.far hs
      refine Contour.not_both ((hs.same_outside ?_ hx q2).mp hp) q1
      exact Set.eq_empty_iff_forall_notMem.mpr fun x hx => on x hx.1 hx.2
    · exact on p hp hx
  refine ⟨part, fun k => ?_⟩
  have part := part fun v hv hx => hs.split.ie v (k v hv) hx
  rintro p (hp | hp)
  · rcases hs.split.cover p with h | h | h
    · exact h
    · obtain ⟨q, q1, q2⟩ := ((hb.near hs h).1 hp).2
      exact absurd q1 (part q (.inl q2))
    · exact absurd h (part p (.inl hp))
  · obtain ⟨s, hm, hp⟩ := hp
    exact (convex_segment hs h).2.2 (k _ (Contour.start_mem_vertices hm)) (k _ (Contour.finish_mem_vertices hm)) p hp

omit hc [IsStrictOrderedRing K] in
theorem linear_parts {l l' : Point K → Location} {r : Relation} (h : LinearLocations l l' r) (ne : ∃ p, l p = .boundary) :
    (r ∈ [Relation.within, .enclosed, .component] ↔ ∀ p, l p = .boundary → l' p ≠ .exterior) ∧
    (r = .within ↔ ∀ p, l p = .boundary → l' p = .interior) := by
  obtain ⟨z, hz⟩ := ne
  cases r <;> simp only [LinearLocations] at h <;>
    simp only [List.mem_cons, List.not_mem_nil, or_false, reduceCtorEq, or_true, true_iff, false_iff] <;> grind

omit hc [IsStrictOrderedRing K] in
theorem areal_parts {l l' : Point K → Location} {r : Relation} (h : ArealLocations l l' r) (ne : ∃ p, l p = .interior)
    (ne' : ∃ p, l p = .boundary)
    (near : ∀ p, l' p = .boundary → l p = .interior → ∃ q, l' q = .exterior ∧ l q = .interior) :
    (r ∈ [Relation.within, .enclosed, .component, .equal] ↔ ∀ p, l p ≠ .exterior → l' p ≠ .exterior) ∧
    (r = .within ↔ ∀ p, l p ≠ .exterior → l' p = .interior) := by
  obtain ⟨z, hz⟩ := ne
  obtain ⟨z', hz'⟩ := ne'
  have cov : ∀ p, l p = .interior ∨ l p = .boundary ∨ l p = .exterior := fun p => by cases l p <;> simp
  cases r <;> simp only [ArealLocations] at h <;>
    simp only [List.mem_cons, List.not_mem_nil, or_false, reduceCtorEq, or_true, true_iff, false_iff] <;> grind

/-- C62: a linear geometry is part of a convex region iff its endpoints and vertices are; it is inside iff these are
inside. -/
theorem C62_line {c : Contour K} (hs : c.Simple) (h : c.Convex) {l : Line K} (vl : l.Valid)
    (hl : l.Suits (.region c)) :
    ((∃ r ∈ [Relation.within, .enclosed, .component], l.relate context (.region c) = .ok r) ↔
      ∀ p ∈ l.nodes, planar.pointInRegion p c context ≠ .exterior) ∧
    (l.relate context (.region c) = .ok .within ↔
      ∀ p ∈ l.nodes, planar.pointInRegion p c context = .interior) := by
  obtain ⟨r, hr⟩ := line_relate_total hc (b := .region c) vl hs hl
  have hr' := (C54_lines hc (b := .region c) vl hs hl r).mp hr
  obtain ⟨n1, n2⟩ := line_nodes l
  have lc := region_located hc hs
  obtain ⟨k1, k2⟩ := linear_parts hr' (line_inhabited hc vl _ (by simp))
  rw [hr]
  simp only [Except.ok.injEq, exists_eq_right', k1, k2, Area.locate, line_located hc, ne_eq, lc.interior, lc.exterior]
  refine ⟨⟨fun k p hp => k p (n1 p hp), fun k p hp => ?_⟩, fun k p hp => k p (n1 p hp), fun k p hp => ?_⟩
  · obtain ⟨s, h1, h2, hp⟩ := n2 p hp
    exact (convex_segment hs h).1 (k _ h1) (k _ h2) p hp
  · obtain ⟨s, h1, h2, hp⟩ := n2 p hp
    exact (convex_segment hs h).2.2 (k _ h1) (k _ h2) p hp

/-- C62: an areal geometry is part of a convex region iff the vertices of its borders are; it is inside iff these are
inside. -/
theorem C62_area {c : Contour K} (hs : c.Simple) (h : c.Convex) {a : Area K} (va : a.Valid)
    (ha : a.Suits (.region c)) :
    ((∃ r ∈ [Relation.within, .enclosed, .component, .equal], a.relate context (.region c) = .ok r) ↔
      ∀ p ∈ a.nodes, planar.pointInRegion p c context ≠ .exterior) ∧
    (a.relate context (.region c) = .ok .within ↔
      ∀ p ∈ a.nodes, planar.pointInRegion p c context = .interior) := by
  obtain ⟨r, hr⟩ := area_relate_total hc (b := .region c) va hs ha
  have hr' := (C54_areas hc (b := .region c) va hs ha r).mp hr
  obtain ⟨n1, n2, n3, n4, -⟩ := area_borders hc va
  have lc := region_located hc hs
  obtain ⟨k1, k2⟩ := areal_parts hr' (area_inhabited hc va _ (by simp)) (area_inhabited hc va _ (by simp))
    (fun p h1 h2 => by
      obtain ⟨q, h3, h4⟩ := n4 c hs p ((lc.boundary p).mp h1) h2
      exact ⟨q, (lc.exterior q).mpr h3, h4⟩)
  have e : (Area.region c).locate context = fun p => planar.pointInRegion p c context := rfl
  rw [hr]
  simp only [Except.ok.injEq, exists_eq_right', k1, k2, e, ne_eq, lc.interior, lc.exterior, Area.nodes,
    List.mem_flatMap, forall_exists_index, and_imp]
  refine ⟨⟨fun k p b hb hp => k p ?_, fun k p hp => ?_⟩, fun k p b hb hp => k p ?_, fun k p hp => ?_⟩
  · rw [n2 b hb p (Contour.vertex_mem_pts hp)]
    simp
  · obtain ⟨b, hb, hp⟩ := n3 p hp
    exact (convex_contour (n1 b hb) hs h).1 (fun v hv => k v b hb hv) p hp
  · rw [n2 b hb p (Contour.vertex_mem_pts hp)]
    simp
  · obtain ⟨b, hb, hp⟩ := n3 p hp
    exact (convex_contour (n1 b hb) hs h).2 (fun v hv => k v b hb hv) p hp

/-! ### separated geometries -/

omit hc in
theorem linear_nodes {α β γ : K} {l : Line K} (h : ∀ p ∈ l.nodes, 0 ≤ linear α β γ p) :
    (∀ p ∈ linePts l, 0 ≤ linear α β γ p) ∧
    ((∀ p ∈ l.nodes, 0 < linear α β γ p) → ∀ p ∈ linePts l, 0 < linear α β γ p) := by
  refine ⟨fun p hp => ?_, fun h p hp => ?_⟩ <;> obtain ⟨s, h1, h2, t, t0, t1, rfl⟩ := (line_nodes l).2 p hp <;>
    rw [linear_lerp]
  · linarith [mul_nonneg (sub_nonneg.mpr t1) (h _ h1), mul_nonneg t0 (h _ h2)]
  · rcases t0.eq_or_lt with rfl | t0
    · simpa using h _ h1
    · linarith [mul_nonneg (sub_nonneg.mpr t1) (h _ h1).le, mul_pos t0 (h _ h2)]

/-- Where the points of an areal geometry with vertices in a half-plane are. -/
theorem linear_area {α β γ : K} (hn : α ≠ 0 ∨ β ≠ 0) {a : Area K} (va : a.Valid)
    (h : ∀ p ∈ a.nodes, 0 ≤ linear α β γ p) :
    (∀ p, a.locate context p ≠ .exterior → 0 ≤ linear α β γ p) ∧
    (∀ p, a.locate context p = .interior → 0 < linear α β γ p) ∧
    ((∀ p ∈ a.nodes, 0 < linear α β γ p) → ∀ p, a.locate context p ≠ .exterior → 0 < linear α β γ p) := by
  obtain ⟨n1, -, n3, -, n5⟩ := area_borders hc va
  have node : ∀ b ∈ a.borders, ∀ v ∈ b.vertices, v ∈ a.nodes := fun b hb v hv => List.mem_flatMap.mpr ⟨b, hb, hv⟩
  refine ⟨fun p hp => ?_, fun p hp => ?_, fun k p hp => ?_⟩
  · obtain ⟨b, hb, hp | hp⟩ := n3 p hp
    · exact ((n1 b hb).linear_interior hn (fun v hv => h v (node b hb v hv)) hp).le
    · exact linear_pts (fun v hv => h v (node b hb v hv)) hp
  · obtain ⟨b, hb, hp⟩ := n5 p hp
    exact (n1 b hb).linear_interior hn (fun v hv => h v (node b hb v hv)) hp
  · obtain ⟨b, hb, hp | hp⟩ := n3 p hp
    · exact (n1 b hb).linear_interior hn (fun v hv => h v (node b hb v hv)) hp
    · exact (linear_nodes (l := .contour b) (fun v hv => h v (node b hb v hv))).2 (fun v hv => k v (node b hb v hv)) p hp

omit hc [IsStrictOrderedRing K] in
theorem linear_neg (α β γ : K) (p : Point K) : linear (-α) (-β) (-γ) p = -linear α β γ p := by
  simp only [linear]
  ring

omit hc [IsStrictOrderedRing K] in
theorem areal_separated {l l' : Point K → Location} {r : Relation} (h : ArealLocations l l' r)
    (ne : ∃ p, l p = .interior) (ne' : ∃ p, l' p = .interior)
    (k : ∀ p, l p = .exterior ∨ l' p = .exterior ∨ (l p = .boundary ∧ l' p = .boundary)) :
    r ∈ [Relation.disjoint, .touch] ∧ ((∀ p, l p = .exterior ∨ l' p = .exterior) → r = .disjoint) := by
  obtain ⟨z, hz⟩ := ne
  obtain ⟨z', hz'⟩ := ne'
  cases r <;> simp only [ArealLocations] at h <;>
    simp only [List.mem_cons, List.not_mem_nil, or_false, reduceCtorEq, or_true, true_and, false_and] <;> grind

omit hc [IsStrictOrderedRing K] in
theorem linear_separated {l l' : Point K → Location} {r : Relation} (h : LinearLocations l l' r)
    (ne : ∃ p, l p = .boundary) (k : ∀ p, l p = .boundary → l' p ≠ .interior) :
    r ∈ [Relation.disjoint, .touch, .component] ∧
      ((∀ p, l p = .boundary → l' p = .exterior) → r = .disjoint) := by
  obtain ⟨z, hz⟩ := ne
  cases r <;> simp only [LinearLocations] at h <;>
    simp only [List.mem_cons, List.not_mem_nil, or_false, reduceCtorEq, or_true, true_and, false_and] <;> grind

/-- C63: areal geometries on different sides of a line are disjoint or touch, and are disjoint if one of them has no
vertices on the line. -/
theorem C63_areas {α β γ : K} (hn : α ≠ 0 ∨ β ≠ 0) {a b : Area K} (va : a.Valid) (vb : b.Valid) (h : a.Suits b)
    (ha : ∀ p ∈ a.nodes, 0 ≤ linear α β γ p) (hb : ∀ p ∈ b.nodes, linear α β γ p ≤ 0) :
    (∃ r ∈ [Relation.disjoint, .touch], a.relate context b = .ok r) ∧
    ((∀ p ∈ a.nodes, 0 < linear α β γ p) ∨ (∀ p ∈ b.nodes, linear α β γ p < 0) →
      a.relate context b = .ok .disjoint) := by
  obtain ⟨r, hr⟩ := area_relate_total hc va vb h
  obtain ⟨a1, a2, a3⟩ := linear_area hc hn va ha
  obtain ⟨b1, b2, b3⟩ := linear_area hc (α := -α) (β := -β) (γ := -γ) (by simpa using hn) vb
    (fun p hp => by rw [linear_neg]; exact neg_nonneg.mpr (hb p hp))
  simp only [linear_neg, Left.nonneg_neg_iff, Left.neg_pos_iff] at b1 b2 b3
  have cov : ∀ (x : Area K) p, x.locate context p = .interior ∨ x.locate context p = .boundary ∨
    x.locate context p = .exterior := fun x p => by cases x.locate context p <;> simp
  obtain ⟨k1, k2⟩ := areal_separated ((C54_areas hc va vb h r).mp hr) (area_inhabited hc va _ (by simp))
    (area_inhabited hc vb _ (by simp)) (fun p => by
      by_contra hp
      push Not at hp
      obtain ⟨h1, h2, h3⟩ := hp
      have h4 := a1 p h1
      have h5 := b1 p h2
      rcases cov a p with k | k | k
      · exact absurd (a2 p k) (not_lt.mpr h5)
      · rcases cov b p with k' | k' | k'
        · exact absurd (b2 p k') (not_lt.mpr h4)
        · exact h3 k k'
        · exact h2 k'
      · exact h1 k)
  refine ⟨⟨r, k1, hr⟩, fun hs => ?_⟩
  rw [hr, k2 fun p => ?_]
  by_contra hp
  push Not at hp
  rcases hs with hs | hs
  · exact absurd (a3 hs p hp.1) (not_lt.mpr (b1 p hp.2))
  · exact absurd (b3 hs p hp.2) (not_lt.mpr (a1 p hp.1))

/-- C63: the same for a linear and an areal geometry. -/
theorem C63_line {α β γ : K} (hn : α ≠ 0 ∨ β ≠ 0) {l : Line K} {b : Area K} (vl : l.Valid) (vb : b.Valid)
    (h : l.Suits b) (hl : ∀ p ∈ l.nodes, 0 ≤ linear α β γ p) (hb : ∀ p ∈ b.nodes, linear α β γ p ≤ 0) :
    (∃ r ∈ [Relation.disjoint, .touch, .component], l.relate context b = .ok r) ∧
    ((∀ p ∈ l.nodes, 0 < linear α β γ p) ∨ (∀ p ∈ b.nodes, linear α β γ p < 0) →
      l.relate context b = .ok .disjoint) := by
  obtain ⟨r, hr⟩ := line_relate_total hc vl vb h
  obtain ⟨a1, a3⟩ := linear_nodes hl
  obtain ⟨b1, b2, b3⟩ := linear_area hc (α := -α) (β := -β) (γ := -γ) (by simpa using hn) vb
    (fun p hp => by rw [linear_neg]; exact neg_nonneg.mpr (hb p hp))
  simp only [linear_neg, Left.nonneg_neg_iff, Left.neg_pos_iff] at b1 b2 b3
  obtain ⟨k1, k2⟩ := linear_separated ((C54_lines hc vl vb h r).mp hr) (line_inhabited hc vl _ (by simp))
    (fun p hp hi => not_lt.mpr (a1 p ((line_located hc l p).mp hp)) (b2 p hi))
  refine ⟨⟨r, k1, hr⟩, fun hs => ?_⟩
  rw [hr, k2 fun p hp => ?_]
  by_contra hx
  have hp := (line_located hc l p).mp hp
  rcases hs with hs | hs
  · exact absurd (a3 hs p hp) (not_lt.mpr (b1 p hx))
  · exact absurd (b3 hs p hx) (not_lt.mpr (a1 p hp))

theorem lines_relate_total {a b : Line K} (va : a.Valid) (vb : b.Valid) : ∃ r, a.relateLine context b = .ok r := by
  have back : ∀ {x : Py Relation}, (∃ r, x = .ok r) → ∃ r, x.map Relation.complement = .ok r := by
    rintro x ⟨r, rfl⟩
    exact ⟨r.complement, rfl⟩
  rcases a with a | a | a <;> rcases b with b | b | b <;>
    simp only [Line.relateLine, Line.Valid] at va vb ⊢
  · exact ⟨_, rfl⟩
  · exact ⟨_, rfl⟩
  · exact (segmentInContour_spec hc va vb).imp fun _ h => h.1
  · exact ⟨_, rfl⟩
  · exact (C18_multisegment_in_multisegment hc va.2 vb.2 va.1 vb.1).imp fun _ h => h.1
  · exact (C18_multisegment_in_contour hc va.2 vb.ne_nil va.1 vb.valid).imp fun _ h => h.1
  · exact back ((segmentInContour_spec hc vb va).imp fun _ h => h.1)
  · exact back ((C18_multisegment_in_contour hc vb.2 va.ne_nil vb.1 va.valid).imp fun _ h => h.1)
  · exact (C36_contour_in_contour_partial hc va vb).imp fun _ h => h.1

/-- C63: linear geometries on different sides of a line. -/
theorem C63_lines {α β γ : K} {a b : Line K} (va : a.Valid) (vb : b.Valid)
    (ha : ∀ p ∈ a.nodes, 0 < linear α β γ p) (hb : ∀ p ∈ b.nodes, linear α β γ p ≤ 0) :
    a.relateLine context b = .ok .disjoint := by
  obtain ⟨r, hr⟩ := lines_relate_total hc va vb
  have a3 := (linear_nodes (l := a) fun p hp => (ha p hp).le).2 ha
  have b1 := (linear_nodes (α := -α) (β := -β) (γ := -γ) (l := b)
    fun p hp => by rw [linear_neg]; exact neg_nonneg.mpr (hb p hp)).1
  simp only [linear_neg, Left.nonneg_neg_iff] at b1
  have k := lines_fact hc va vb hr
  have no : ∀ p ∈ linePts a, p ∉ linePts b := fun p hp hp' => not_lt.mpr (b1 p hp') (a3 p hp)
  obtain ⟨z, hz⟩ := line_inhabited hc va .boundary (by simp)
  obtain ⟨w, hw⟩ := line_inhabited hc vb .boundary (by simp)
  rw [line_located hc] at hz hw
  rw [hr]
  cases r <;> simp only [LinesFact] at k <;> try rfl
  · obtain ⟨p, h1, h2⟩ := k
    exact absurd h2 (no p h1)
  · obtain ⟨p, h1, h2⟩ := k
    exact absurd h2 (no p h1)
  · obtain ⟨p, h1, h2⟩ := k
    exact absurd h2 (no p h1)
  · exact absurd hw (no w (k hw))
  · exact absurd (k ▸ hz) (no z hz)
  · exact absurd (k hz) (no z hz)

/-! ### convex hulls -/

/-- C64: a region is enclosed by its convex hull or equals it. -/
theorem C64_region {c h : Contour K} (sc : c.Simple) (sh : h.Simple) (hh : h.Convex)
    (h1 : ∀ v ∈ h.vertices, v ∈ c.vertices) (h2 : ∀ v ∈ c.vertices, planar.pointInRegion v h context ≠ .exterior) :
    ∃ r ∈ [Relation.equal, .enclosed], planar.regionInRegion c h context = .ok r := by
  have e : (Area.region c).nodes = c.vertices := by simp [Area.nodes, Area.borders]
  obtain ⟨k1, k2⟩ := C62_area hc sh hh (a := .region c) sc trivial
  rw [e] at k1 k2
  obtain ⟨r, hr, k⟩ := k1.mpr h2
  obtain ⟨r', q, k', -, hq⟩ := C59_regions hc sc sh
  have k : planar.regionInRegion c h context = .ok r := k
  have e : r' = r := by rw [k'] at k; injection k
  subst e
  refine ⟨r', ?_, k'⟩
  simp only [List.mem_cons, List.not_mem_nil, or_false] at hr ⊢
  rcases hr with rfl | rfl | rfl | rfl
  · exfalso
    obtain ⟨v, hv⟩ := List.exists_mem_of_ne_nil h.vertices fun e => by
      have := sh.three
      simp [e] at this
    have := k2.mp k v (h1 v hv)
    rw [((region_located hc sh).boundary v).mpr (Contour.vertex_mem_pts hv)] at this
    cases this
  · exact .inr rfl
  · simp [Relation.regionBorder] at hq
  · exact .inl rfl

/-- C64: the same for polygons, which may have holes. -/
theorem C64_polygon {g : Polygon K} {h : Contour K} (vg : g.Valid) (vc : g.Connected) (sh : h.Simple) (hh : h.Convex)
    (h1 : ∃ v ∈ h.vertices, v ∈ g.border.vertices)
    (h2 : ∀ v ∈ g.border.vertices, planar.pointInRegion v h context ≠ .exterior) :
    ∃ r ∈ [Relation.equal, .component, .enclosed],
      (Area.polygon g).relate context (.region h) = .ok r := by
  have e : (Area.polygon g).nodes = g.border.vertices := by simp [Area.nodes, Area.borders]
  obtain ⟨k1, k2⟩ := C62_area hc sh hh (a := .polygon g) vg vc
  rw [e] at k1 k2
  obtain ⟨r, hr, k⟩ := k1.mpr h2
  refine ⟨r, ?_, k⟩
  simp only [List.mem_cons, List.not_mem_nil, or_false] at hr ⊢
  rcases hr with rfl | rfl | rfl | rfl
  · exfalso
    obtain ⟨v, hv, hv'⟩ := h1
    have := k2.mp k v hv'
    rw [((region_located hc sh).boundary v).mpr (Contour.vertex_mem_pts hv)] at this
    cases this
  · exact .inr (.inr rfl)
  · exact .inr (.inl rfl)
  · exact .inl rfl

end

/-! ### cases that meet the hypotheses -/

theorem sameQ_convex : sameQ.ConvexLeft := by unfold Contour.ConvexLeft; decide +kernel

theorem sameU'_convex : sameU'.ConvexRight := by unfold Contour.ConvexRight; decide +kernel

/-- A triangle with a notch. -/
def convexA : Contour ℚ := ⟨[⟨0, 0⟩, ⟨8, 0⟩, ⟨3, 2⟩, ⟨0, 8⟩]⟩

/-- Its hull. -/
def convexH : Contour ℚ := ⟨[⟨0, 0⟩, ⟨8, 0⟩, ⟨0, 8⟩]⟩

theorem convex_ok : convexA.Simple ∧ convexH.Simple ∧ sameU'.Simple ∧ convexH.Convex :=
  ⟨Contour.simple_of_check (by decide +kernel), Contour.simple_of_check (by decide +kernel),
    Contour.simple_of_check (by decide +kernel), .inl (by unfold Contour.ConvexLeft; decide +kernel)⟩

/-- C61 applies to a square, counterclockwise, and a triangle, clockwise: all points of the diagonal are found
inside, and points beyond an edge are outside. -/
theorem C61_example :
    (∀ t : ℚ, 0 < t → t < 8 → planar.pointInRegion ⟨t, t⟩ sameQ reference.context = .interior) ∧
    (∀ x y : ℚ, 8 < x → planar.pointInRegion ⟨x, y⟩ sameQ reference.context = .exterior) ∧
    (∀ t : ℚ, 14 < t → t < 16 → planar.pointInRegion ⟨t, 16 - t⟩ sameU' reference.context = .boundary) ∧
    planar.pointInRegion ⟨3, 5⟩ sameQ reference.context ≠ .exterior := by
  obtain ⟨q, -⟩ := same_simple
  refine ⟨fun t h1 h2 => ?_, fun x y h => ?_, fun t h1 h2 => ?_, ?_⟩
  · refine (C61_left ex q sameQ_convex _).1.mpr ?_
    simp [Contour.edgeList, cross, sameQ]
    constructor <;> linarith
  · refine (C61_left ex q sameQ_convex _).2.2.mpr ?_
    simp [Contour.edgeList, cross, sameQ]
    right; right; left
    linarith
  · refine (C61_right ex convex_ok.2.2.1 sameU'_convex _).2.1.mpr ?_
    simp [Contour.edgeList, cross, sameU']
    refine ⟨⟨?_, ?_, ?_⟩, .inr (.inl ?_)⟩ <;> linarith
  · exact (C61_between ex q (.inl sameQ_convex) (a := ⟨1, 5⟩) (b := ⟨8, 5⟩) (by decide +kernel) (by decide +kernel)
      (by decide +kernel)).1

/-- C62 applies to a contour, a region, a polygon with a hole and a multiregion. -/
theorem C62_example :
    (Line.contour sameH).relate reference.context (.region sameQ) = .ok .within ∧
    (Area.region sameH).relate reference.context (.region sameQ) = .ok .within ∧
    (∃ r ∈ [Relation.within, .enclosed, .component, .equal],
      (Area.polygon sameG).relate reference.context (.region sameQ) = .ok r) ∧
    ¬ ∃ r ∈ [Relation.within, .enclosed, .component, .equal],
      (Area.multiregion sameM).relate reference.context (.region sameQ) = .ok r := by
  obtain ⟨q, -, t, -, -, -, h, -⟩ := same_simple
  have qc : sameQ.Convex := .inl sameQ_convex
  refine ⟨(C62_line ex q qc (l := .contour sameH) h trivial).2.mpr (by decide +kernel),
    (C62_area ex q qc (a := .region sameH) h trivial).2.mpr (by decide +kernel),
    (C62_area ex q qc (a := .polygon sameG) sameG_ok.1 sameG_ok.2.2.1).1.mpr (by decide +kernel), ?_⟩
  rw [(C62_area ex q qc (a := .multiregion sameM) (someAreas_valid _ (by simp [someAreas])) trivial).1]
  decide +kernel

/-- A triangle which touches `sameQ`. -/
def convexB : Contour ℚ := ⟨[⟨8, 1⟩, ⟨10, 0⟩, ⟨10, 3⟩]⟩

/-- C63 applies to geometries on different sides of a vertical line. -/
theorem C63_example :
    (Area.region sameU).relate reference.context (.polygon sameG) = .ok .disjoint ∧
    (∃ r ∈ [Relation.disjoint, .touch], (Area.region convexB).relate reference.context (.polygon sameG) = .ok r) ∧
    (∃ r ∈ [Relation.disjoint, .touch, .component],
      (Line.contour convexB).relate reference.context (.region sameQ) = .ok r) ∧
    (Line.contour sameU).relateLine reference.context (.multisegment sameX) = .ok .disjoint := by
  obtain ⟨q, -, t, -, u, -, h, -⟩ := same_simple
  have b : convexB.Simple := Contour.simple_of_check (by decide +kernel)
  exact ⟨(C63_areas ex (α := 1) (β := 0) (γ := -13) (by norm_num) (a := .region sameU) (b := .polygon sameG) u
      sameG_ok.1 sameG_ok.2.2.1 (by decide +kernel) (by decide +kernel)).2 (by decide +kernel),
    (C63_areas ex (α := 1) (β := 0) (γ := -8) (by norm_num) (a := .region convexB) (b := .polygon sameG) b
      sameG_ok.1 sameG_ok.2.2.1 (by decide +kernel) (by decide +kernel)).1,
    (C63_line ex (α := 1) (β := 0) (γ := -8) (by norm_num) (l := .contour convexB) (b := .region sameQ) b q
      trivial (by decide +kernel) (by decide +kernel)).1,
    C63_lines ex (α := 1) (β := 0) (γ := -13) (a := .contour sameU) (b := .multisegment sameX) u
      ⟨sameX_ok.2.2.1, sameX_ok.1⟩ (by decide +kernel) (by decide +kernel)⟩

/-- C64 applies to a triangle with a notch and its hull. -/
theorem C64_example : (∃ r ∈ [Relation.equal, .enclosed],
      planar.regionInRegion convexA convexH reference.context = .ok r) ∧
    ∃ r ∈ [Relation.equal, .component, .enclosed],
      (Area.polygon sameG).relate reference.context (.region sameQ) = .ok r :=
  ⟨C64_region ex convex_ok.1 convex_ok.2.1 convex_ok.2.2.2 (by decide +kernel) (by decide +kernel),
    C64_polygon ex sameG_ok.1 sameG_ok.2.2.1 same_simple.1 (.inl sameQ_convex) (by decide +kernel) (by decide +kernel)⟩

end Orient.Props
