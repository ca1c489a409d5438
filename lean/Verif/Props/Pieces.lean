import Verif.Props.Detour

/-! C88: linear geometries and their pieces, without conditions on the areal geometry. -/

set_option linter.unusedSectionVars false

namespace Orient.Props

variable {K : Type} [Field K] [LinearOrder K] [IsStrictOrderedRing K]

/-- A segment which crosses an edge of a contour has points on both sides. -/
theorem crosses_sides {c : Contour K} (h : c.Simple) {w v : Segment K} (hw : w.Nondegenerate) (hv : v ∈ c.edgeList)
    {p : Point K} (p1 : p ∈ w.pts) (p2 : p ∈ v.pts) (n1 : ¬ w.IsEndpoint p) (n2 : ¬ v.IsEndpoint p)
    (hs : (w.pts ∩ v.pts).Subsingleton) : (w.pts ∩ c.interior).Nonempty ∧ (w.pts ∩ c.exterior).Nonempty := by
  have X : EdgesCross c.edgeList [w] := by
    refine ⟨w, by simp, v, hv, p, ⟨p1, p2⟩, n1, n2, .inr ⟨v.start, fun k => n2 (.inl k.symm), ?_, ?_⟩⟩
    · exact Segment.pts_subset p2 v.start_mem
    · rw [segsPts_singleton]
      exact fun x hx hx' => hs ⟨hx', Segment.pts_subset p2 v.start_mem hx⟩ ⟨p1, p2⟩
  obtain ⟨r, hr, k⟩ := C73_multisegment_in_region (reference.context_exact (K := K)) (a := ⟨[w]⟩) (by simp)
    (single_valid hw) h
  have e : r = .cross := ((k r).mpr rfl).1 X
  rw [e, C86_multisegment_in_region reference.context_exact hw h] at hr
  exact hr

/-- A segment which crosses an edge of a contour leaves all edges, if these keep off one of the sides of the contour. -/
theorem leaves_of_side {c : Contour K} (h : c.Simple) {G : List (Segment K)} 
    (free : c.interior ∩ segsPts G = ∅ ∨ c.exterior ∩ segsPts G = ∅)
    {u v : Segment K} (hu : u.Nondegenerate) (hv : v ∈ c.edgeList)
    {p : Point K} (p1 : p ∈ u.pts) (p2 : p ∈ v.pts) (n1 : ¬ u.IsEndpoint p) (n2 : ¬ v.IsEndpoint p)
    (hs : (u.pts ∩ v.pts).Subsingleton) : u.LeavesAt p (segsPts G) := by
  by_contra hn
  obtain ⟨t, t0, t1, rfl⟩ := p1
  have t0' : 0 < t := lt_of_le_of_ne t0 fun k => n1 (.inl (by rw [← k, lerp_zero]))
  have t1' : t < 1 := lt_of_le_of_ne t1 fun k => n1 (.inr (by rw [k, lerp_one]))
  obtain ⟨δ, d0, hδ⟩ := exists_near_edges hu G t0 t1
  -- in every direction there are edges
  have dir : ∀ d, d ≠ 0 → 0 ≤ t + d → t + d ≤ 1 → |d| ≤ δ →
      ∃ z, 0 < z ∧ z ≤ 1 ∧ (⟨lerp u.start u.finish t, lerp u.start u.finish (t + z * d)⟩ : Segment K).pts ⊆ segsPts G := by
    intro d hd h0 h1 hle
    have hn' := fun h1 h2 h3 => hn ⟨lerp u.start u.finish (t + d), h1, h2, h3⟩
    by_contra hf
    push Not at hf
    refine hn' (fun k => hd ?_) (Segment.pts_subset ⟨t, t0, t1, rfl⟩ ⟨t + d, h0, h1, rfl⟩) fun x hx hxG => ?_
    · have := lerp_injective hu k
      linarith
    · obtain ⟨z, z0, z1, rfl⟩ := hx
      obtain ⟨g, hg, hxg⟩ := hxG
      simp only at hxg ⊢
      rw [lerp_lerp, add_sub_cancel_left] at hxg ⊢
      rcases z0.eq_or_lt with e | z0'
      · rw [← e]; simp
      · exfalso
        refine hf z z0' z1 ?_
        have k := hδ g hg (t + z * d) (by nlinarith) (by nlinarith) (by
          rw [add_sub_cancel_left, abs_mul, abs_of_nonneg z0]
          exact (mul_le_of_le_one_left (abs_nonneg d) z1).trans hle) hxg
        exact fun y hy => ⟨g, hg, Segment.pts_subset k hxg hy⟩
  set ρ := min δ (min t (1 - t)) with hρ
  have ρ0 : 0 < ρ := lt_min d0 (lt_min t0' (by linarith))
  have ρ1 : ρ ≤ δ := min_le_left _ _
  have ρ2 : ρ ≤ t := (min_le_right _ _).trans (min_le_left _ _)
  have ρ3 : ρ ≤ 1 - t := (min_le_right _ _).trans (min_le_right _ _)
  obtain ⟨y, y0, y1, hy⟩ := dir ρ ρ0.ne' (by linarith) (by linarith) (by rwa [abs_of_pos ρ0])
  obtain ⟨z, z0, z1, hz⟩ := dir (-ρ) (by linarith) (by linarith) (by linarith) (by rwa [abs_neg, abs_of_pos ρ0])
  have b1 : 0 ≤ t + z * -ρ := by nlinarith
  have b2 : t + y * ρ ≤ 1 := by nlinarith
  have c1 : 0 < z * ρ := mul_pos z0 ρ0
  have c2 : 0 < y * ρ := mul_pos y0 ρ0
  set w : Segment K := ⟨lerp u.start u.finish (t + z * -ρ), lerp u.start u.finish (t + y * ρ)⟩ with hw
  have wu : w.pts ⊆ u.pts := Segment.pts_subset ⟨_, b1, by linarith, rfl⟩ ⟨_, by linarith, b2, rfl⟩
  have inj : ∀ {a b : K}, lerp u.start u.finish a = lerp u.start u.finish b → a = b := fun k => lerp_injective hu k
  have wn : w.Nondegenerate := fun k => by have := inj k; linarith
  have wG : w.pts ⊆ segsPts G := by
    rintro x ⟨s, s0, s1, rfl⟩
    simp only [hw]
    rw [lerp_lerp]
    by_cases k : t ≤ t + z * -ρ + s * (t + y * ρ - (t + z * -ρ))
    · refine hy ⟨(z * -ρ + s * (y * ρ + z * ρ)) / (y * ρ), div_nonneg (by linarith) c2.le, ?_, ?_⟩
      · rw [div_le_one c2]
        nlinarith
      · simp only
        rw [lerp_lerp]
        congr 1
        field_simp
        ring
    · refine hz ⟨(z * ρ - s * (y * ρ + z * ρ)) / (z * ρ), div_nonneg (by linarith) c1.le, ?_, ?_⟩
      · rw [div_le_one c1]
        nlinarith
      · simp only
        rw [lerp_lerp]
        congr 1
        field_simp
        ring
  have pw : lerp u.start u.finish t ∈ w.pts := by
    refine ⟨(z * ρ) / (y * ρ + z * ρ), div_nonneg c1.le (by linarith), ?_, ?_⟩
    · rw [div_le_one (by linarith)]; linarith
    · simp only [hw]
      rw [lerp_lerp]
      congr 1
      have : y * ρ + z * ρ ≠ 0 := by linarith
      have : y + z ≠ 0 := by linarith
      field_simp
      ring
  obtain ⟨⟨x, x1, x2⟩, x', x1', x2'⟩ := crosses_sides h wn hv pw p2 (by
      rintro (k | k)
      · have := inj k; linarith
      · have := inj k; linarith) n2 (hs.anti (Set.inter_subset_inter_left _ wu))
  rcases free with free | free
  · exact Set.eq_empty_iff_forall_notMem.mp free x ⟨x2, wG x1⟩
  · exact Set.eq_empty_iff_forall_notMem.mp free x' ⟨x2', wG x1'⟩

/-- Segments cross edges if one of them does. -/
theorem edgesCross_pieces {G T : List (Segment K)} (hG : ∀ v ∈ G, v.Nondegenerate) (hT : ∀ u ∈ T, u.Nondegenerate)
    (free : ∀ v ∈ G, ∃ c : Contour K, c.Simple ∧ v ∈ c.edgeList ∧
      (c.interior ∩ segsPts G = ∅ ∨ c.exterior ∩ segsPts G = ∅)) :
    EdgesCross G T ↔ ∃ u ∈ T, EdgesCross G [u] := by
  constructor
  · rintro ⟨u, hu, v, hv, p, hp, n1, n2, k⟩
    refine ⟨u, hu, u, by simp, v, hv, p, hp, n1, n2, k.imp id ?_⟩
    rintro ⟨a, a1, a2, a3⟩
    exact ⟨a, a1, a2, fun x hx hx' => a3 x hx (by
      rw [segsPts_singleton] at hx'
      exact ⟨u, hu, hx'⟩)⟩
  · rintro ⟨u, hu, u', hu', v, hv, p, hp, n1, n2, k⟩
    obtain rfl : u' = u := by simpa using hu'
    refine ⟨u', hu, v, hv, p, hp, n1, n2, .inl ?_⟩
    rcases k with k | k
    · exact k
    obtain ⟨c, hc, hvc, f⟩ := free v hv
    refine leaves_of_side hc f (hT _ hu) hvc hp.1 hp.2 n1 n2 ?_
    rw [Set.inter_comm]
    exact k.subsingleton (hG v hv) (hT _ hu) ⟨hp.2, n2⟩ ⟨hp.1, n1⟩ (by rw [segsPts_singleton])

/-- The answers about the pieces, crossings included. -/
theorem crossAnswer_join {X : Prop} {X' : Segment K → Prop} {I B E : Set (Point K)} {l' : Point K → Location}
    (loc : Located l' I B E) {T : List (Segment K)} (nT : T ≠ []) (hX : X ↔ ∃ u ∈ T, X' u) {f : Segment K → Relation}
    (h : ∀ u ∈ T, CrossAnswer (X' u) u.pts I B E (f u)) (r : Relation) :
    CrossAnswer X (segsPts T) I B E r ↔ JoinOf (fun q => ∃ u ∈ T, f u = q) r := by
  classical
  by_cases x : X
  · obtain ⟨u, hu, k⟩ := hX.mp x
    have e : f u = .cross := (h u hu).1 k
    rw [show CrossAnswer X (segsPts T) I B E r ↔ r = .cross from
      ⟨fun k => k.1 x, fun k => ⟨fun _ => k, fun k' => absurd x k'⟩⟩]
    have R : ∃ u ∈ T, f u = .cross := ⟨u, hu, e⟩
    cases r <;> simp only [JoinOf, reduceCtorEq, false_iff, true_iff]
    · exact fun k => by cases k _ R
    · exact fun k => by have := k.1 _ R; simp at this
    · exact ⟨.inr (.inr R), .inr (.inr R)⟩
    all_goals first
      | exact id
      | exact fun k => by cases k _ R
      | exact fun k => by have := k.1 _ R; simp at this
  · have hf : ∀ u ∈ T, LinearCompoundRel u.pts I B E (f u) := fun u hu => (h u hu).2 fun k => x (hX.mpr ⟨u, hu, k⟩)
    rw [show CrossAnswer X (segsPts T) I B E r ↔ LinearCompoundRel (segsPts T) I B E r from
      ⟨fun k => k.2 x, fun k => ⟨fun k' => absurd k' x, fun _ => k⟩⟩]
    have hl : ∀ u : Segment K, ∀ p, (if p ∈ u.pts then Location.boundary else .exterior) = .boundary ↔ p ∈ u.pts := by
      intro u p; by_cases k : p ∈ u.pts <;> simp [k]
    have hl' : ∀ p, (if p ∈ segsPts T then Location.boundary else .exterior) = .boundary ↔ p ∈ segsPts T := by
      intro p; by_cases k : p ∈ segsPts T <;> simp [k]
    have e : (fun q => ∃ u ∈ T, f u = q) = fun q => ∃ u, u ∈ T ∧
        LinearLocations (fun p => if p ∈ u.pts then .boundary else .exterior) l' q := by
      ext q
      refine exists_congr fun u => and_congr_right fun hu => ?_
      rw [linearLocations_iff (hl u) loc]
      have dis : ∀ {A C : Set (Point K)} {a c : Location}, (∀ p, l' p = a ↔ p ∈ A) → (∀ p, l' p = c ↔ p ∈ C) → a ≠ c →
          A ∩ C = ∅ := fun ha hc hne => Set.eq_empty_iff_forall_notMem.mpr fun p ⟨k1, k2⟩ =>
        hne (((ha p).mpr k1).symm.trans ((hc p).mpr k2))
      refine ⟨fun k => k ▸ hf u hu, fun k => LinearCompoundRel.unique ⟨_, u.start_mem⟩
        (dis loc.interior loc.boundary (by simp)) (dis loc.interior loc.exterior (by simp))
        (dis loc.boundary loc.exterior (by simp)) (hf u hu) k⟩
    rw [e, ← linearLocations_iff hl' loc]
    refine linearLocations_union (fun p => ?_) (fun u hu => ?_) (fun u hu => ?_) (List.exists_mem_of_ne_nil _ nT) r
    · rw [hl']
      simp only [hl]
      rfl
    · exact ⟨u.start, (hl u _).mpr u.start_mem⟩
    · exact ⟨f u, (linearLocations_iff (hl u) loc _).mpr (hf u hu)⟩

theorem multiregion_free {m : Multiregion K} (hm : Multiregion.Valid m) : ∀ v ∈ m.flatMap Contour.edgeList,
    ∃ c : Contour K, c.Simple ∧ v ∈ c.edgeList ∧ (c.interior ∩ segsPts (m.flatMap Contour.edgeList) = ∅ ∨
      c.exterior ∩ segsPts (m.flatMap Contour.edgeList) = ∅) := by
  intro v hv
  obtain ⟨c, hc, hvc⟩ := List.mem_flatMap.mp hv
  refine ⟨c, hm.simple c hc, hvc, .inl (Set.eq_empty_iff_forall_notMem.mpr ?_)⟩
  rintro p ⟨p1, u, hu, p2⟩
  obtain ⟨d, hd, hud⟩ := List.mem_flatMap.mp hu
  exact Set.eq_empty_iff_forall_notMem.mp (multiregion_apart hm).1 p ⟨⟨c, hc, p1⟩, d, hd, u, hud, p2⟩

theorem polygon_free {g : Polygon K} (hg : g.Valid) : ∀ v ∈ g.edges, ∃ c : Contour K, c.Simple ∧ v ∈ c.edgeList ∧
    (c.interior ∩ segsPts g.edges = ∅ ∨ c.exterior ∩ segsPts g.edges = ∅) := by
  intro v hv
  have out := Set.eq_empty_iff_forall_notMem.mp (polygon_apart hg).2.2
  rw [Polygon.segsPts_edges]
  rcases List.mem_append.mp hv with k | k
  · exact ⟨g.border, hg.border, k, .inr (Set.eq_empty_iff_forall_notMem.mpr fun p ⟨p1, p2⟩ => out p ⟨p2, .inl p1⟩)⟩
  · obtain ⟨h, hh, k⟩ := List.mem_flatMap.mp k
    exact ⟨h, hg.holes.simple h hh, k,
      .inl (Set.eq_empty_iff_forall_notMem.mpr fun p ⟨p1, p2⟩ => out p ⟨p2, .inr ⟨h, hh, p1⟩⟩)⟩

theorem multiregion_edges_ne {m : Multiregion K} (hm : Multiregion.Valid m) :
    ∀ v ∈ m.flatMap Contour.edgeList, v.Nondegenerate := fun v hv => by
  obtain ⟨c, hc, hvc⟩ := List.mem_flatMap.mp hv
  exact (hm.simple c hc).nondegenerate hvc

theorem polygon_edges_ne {g : Polygon K} (hg : g.Valid) : ∀ v ∈ g.edges, v.Nondegenerate := fun v hv =>
  (List.mem_append.mp hv).elim (fun k => hg.border.nondegenerate k) fun k => multiregion_edges_ne hg.holes v k

section

variable {context : Context K} (hc : context.Exact)
include hc

/-- What is common to the following theorems. -/
theorem pieces_join {X : Prop} {X' : Segment K → Prop} {I B E : Set (Point K)} {l' : Point K → Location}
    (loc : Located l' I B E) {T : List (Segment K)} (nT : T ≠ []) (hX : X ↔ ∃ u ∈ T, X' u)
    {F : Segment K → Py Relation}
    (h : ∀ u ∈ T, ∃ r, F u = .ok r ∧ ∀ q, CrossAnswer (X' u) u.pts I B E q ↔ q = r) {x : Py Relation}
    (hx : ∃ r, x = .ok r ∧ ∀ q, CrossAnswer X (segsPts T) I B E q ↔ q = r) (r : Relation) :
    x = .ok r ↔ JoinOf (fun q => ∃ u ∈ T, F u = .ok q) r := by
  classical
  obtain ⟨r', rfl, k⟩ := hx
  let f : Segment K → Relation := fun u => match F u with
    | .ok q => q
    | .error _ => .disjoint
  have hf : ∀ u ∈ T, F u = .ok (f u) := fun u hu => by
    obtain ⟨q, hq, -⟩ := h u hu
    simp only [f, hq]
  have hf' : ∀ u ∈ T, ∀ q, CrossAnswer (X' u) u.pts I B E q ↔ q = f u := fun u hu => by
    obtain ⟨q, hq, k⟩ := h u hu
    have := hf u hu
    rw [hq, Except.ok.injEq] at this
    rwa [← this]
  have e : (fun q => ∃ u ∈ T, F u = .ok q) = fun q => ∃ u ∈ T, f u = q := by
    ext q
    refine exists_congr fun u => and_congr_right fun hu => ?_
    rw [hf u hu, Except.ok.injEq]
  rw [e, ← crossAnswer_join loc nT hX fun u hu => (hf' u hu _).mpr rfl, k, Except.ok.injEq, eq_comm]

/-- C88: `contour_in_multiregion` is the join of `segment_in_multiregion` for the edges. -/
theorem C88_contour_in_multiregion {a : Contour K} (ha : a.Simple) {m : Multiregion K} (hm : Multiregion.Valid m)
    (r : Relation) : planar.contourInMultiregion a m context = .ok r ↔
      JoinOf (fun q => ∃ s ∈ a.edgeList, planar.segmentInMultiregion s m context = .ok q) r :=
  pieces_join hc (multiregion_located hc hm) (Contour.edgeList_ne_nil ha.ne_nil)
    (edgesCross_pieces (multiregion_edges_ne hm) ha.valid.1 (multiregion_free hm))
    (fun u hu => C73_segment_in_multiregion hc (ha.valid.1 u hu) hm) (C73_contour_in_multiregion hc ha hm) r

/-- C88: `multisegment_in_multiregion` is the join of `segment_in_multiregion` for the segments, if the segments do not
contain the boundary of a region. -/
theorem C88_multisegment_in_multiregion {a : Multisegment K} (ha : a.segments ≠ []) (va : SegmentsValid a.segments)
    {m : Multiregion K} (hm : Multiregion.Valid m) (h : ∀ c ∈ m, ¬ Contour.pts c ⊆ segsPts a.segments) (r : Relation) :
    planar.multisegmentInMultiregion a m context = .ok r ↔
      JoinOf (fun q => ∃ s ∈ a.segments, planar.segmentInMultiregion s m context = .ok q) r := by
  refine pieces_join hc (multiregion_located hc hm) ha
    (edgesCross_pieces (multiregion_edges_ne hm) va.1 (multiregion_free hm))
    (fun u hu => C73_segment_in_multiregion hc (va.1 u hu) hm) ?_ r
  obtain ⟨r, hr, k⟩ := C73_multisegment_in_multiregion hc ha va hm
  obtain ⟨h1, h2, h3⟩ := multiregion_apart hm
  refine ⟨r, hr, CrossAnswer.only (segsPts_nonempty ha) h1 h2 h3 (LinearAnswer.cross ((k r).mpr rfl) ?_)⟩
  rintro ⟨hY, x, x1, c, hcm, x2⟩
  exact h c hcm (hY c hcm (not_boxesApart x1 (.inl x2)))

/-- C88: `multisegment_in_polygon` is the join of the answers about the single segments, if the segments do not contain
the whole boundary. -/
theorem C88_multisegment_in_polygon {a : Multisegment K} (ha : a.segments ≠ []) (va : SegmentsValid a.segments)
    {g : Polygon K} (hg : g.Valid) (h : ¬ g.pts ⊆ segsPts a.segments) (r : Relation) :
    planar.multisegmentInPolygon a g context = .ok r ↔
      JoinOf (fun q => ∃ s ∈ a.segments, planar.multisegmentInPolygon ⟨[s]⟩ g context = .ok q) r := by
  refine pieces_join hc (polygon_located hc hg) ha (edgesCross_pieces (polygon_edges_ne hg) va.1 (polygon_free hg))
    (fun u hu => ?_) ?_ r
  · obtain ⟨r, hr, -, -, k⟩ := C86_polygon hc (va.1 u hu) hg
    exact ⟨r, hr, k⟩
  · obtain ⟨r, hr, k⟩ := C73_multisegment_in_polygon hc ha va hg
    obtain ⟨h1, h2, h3⟩ := polygon_apart hg
    exact ⟨r, hr, CrossAnswer.only (segsPts_nonempty ha) h1 h2 h3 (LinearAnswer.cross ((k r).mpr rfl) fun k => h k.1)⟩

/-- C88: `contour_in_multipolygon` with a single polygon is the join of `segment_in_multipolygon` for the edges. -/
theorem C88_contour_in_polygon {a : Contour K} (ha : a.Simple) {g : Polygon K} (hg : g.Valid) (r : Relation) :
    planar.contourInMultipolygon a ⟨[g]⟩ context = .ok r ↔
      JoinOf (fun q => ∃ s ∈ a.edgeList, planar.segmentInMultipolygon s ⟨[g]⟩ context = .ok q) r := by
  obtain ⟨v, e1, e2, e3, e4⟩ := single_multipolygon hg
  refine pieces_join hc (polygon_located hc hg) (Contour.edgeList_ne_nil ha.ne_nil)
    (edgesCross_pieces (polygon_edges_ne hg) ha.valid.1 (polygon_free hg)) (fun u hu => ?_) ?_ r
  · obtain ⟨r, -, hr, -, k⟩ := C86_polygon hc (ha.valid.1 u hu) hg
    exact ⟨r, hr, k⟩
  · have := C73_contour_in_multipolygon hc ha v
    rwa [e1, e2, e3, e4] at this

end

/-- The theorems apply where answers are wrong: `CROSS` is answered about a segment which passes from one region to
another one at a point inside of an edge, and so about a contour which contains it. -/
theorem C88_example :
    ∃ a : Contour ℚ, a.Simple ∧ Multiregion.Valid exampleTouching ∧
      planar.contourInMultiregion a exampleTouching (reference.context : Context ℚ) = .ok .cross ∧
      planar.segmentInMultiregion ⟨⟨1, 1⟩, ⟨3, 3⟩⟩ exampleTouching (reference.context : Context ℚ) = .ok .cross ∧
      (⟨⟨1, 1⟩, ⟨3, 3⟩⟩ : Segment ℚ) ∈ a.edgeList := by
  refine ⟨⟨[⟨1, 1⟩, ⟨3, 3⟩, ⟨1, 3⟩]⟩, Contour.simple_of_check (by decide +kernel),
    Multiregion.valid_of_check (by decide +kernel), by decide +kernel, by decide +kernel, by decide +kernel⟩

/-- With multipolygons it is not so: at a point where a hole of one polygon and another polygon touch an edge from both
sides, `CROSS` is answered about a segment, but `COMPONENT` about the segments along all these edges. -/
theorem C88_multipolygon_counterexample :
    let m : Multipolygon ℚ := ⟨[⟨⟨[⟨0, 0⟩, ⟨8, 0⟩, ⟨8, 8⟩, ⟨0, 8⟩]⟩, [⟨[⟨4, 0⟩, ⟨4, 4⟩, ⟨3, 4⟩]⟩]⟩,
      ⟨⟨[⟨4, 0⟩, ⟨4, -4⟩, ⟨5, -4⟩]⟩, []⟩]⟩
    let a : Multisegment ℚ := ⟨[⟨⟨4, -2⟩, ⟨4, 2⟩⟩, ⟨⟨2, 0⟩, ⟨4, 0⟩⟩, ⟨⟨4, 0⟩, ⟨6, 0⟩⟩]⟩
    m.Valid ∧ SegmentsValid a.segments ∧
      planar.multisegmentInMultipolygon a m reference.context = .ok .component ∧
      planar.segmentInMultipolygon ⟨⟨4, -2⟩, ⟨4, 2⟩⟩ m reference.context = .ok .cross := by
  intro m a
  refine ⟨Multipolygon.valid_of_check (by decide +kernel), segmentsValid_of_check (by decide +kernel),
    by decide +kernel, by decide +kernel⟩

end Orient.Props
