import Verif.Spec.Corners
import Verif.Props.ExactSegmentsAll
import Verif.Props.Convex

/-! C85: `segment_in_region` and `segment_in_polygon` are right about convex contours.

The exceptions of C13 need a reflex vertex, a vertex in the middle of an edge, or five vertices which are listed
clockwise. -/

set_option linter.unusedSectionVars false

namespace Orient.Props

variable {K : Type} [Field K] [LinearOrder K] [IsStrictOrderedRing K]

open Segment

/-- Points of the region on the line of an edge are on the edge. -/
theorem cornered_edge {c : Contour K} (h : c.Simple) {σ : K} (hσ : σ ≠ 0)
    (k : ∀ e ∈ c.edgeList, ∀ v ∈ c.vertices, 0 ≤ sideOf σ e v) (hcor : c.Cornered) {e : Segment K} (he : e ∈ c.edgeList)
    {x : Point K} (hx : x ∉ c.exterior) (h0 : sideOf σ e x = 0) : x ∈ e.pts := by
  have h2 : 2 ≤ c.vertices.length := by have := h.three; omega
  obtain ⟨i, hi⟩ := List.mem_iff_getElem?.mp he
  obtain ⟨-, -, ⟨a, ha, -⟩, b, hb, -⟩ := c.vertices_at h2 hi
  rw [(convex_locates h hσ k x).2.2] at hx
  push Not at hx
  have hne := h.nondegenerate he
  have hcr : cross e.start e.finish x = 0 := by
    rcases mul_eq_zero.mp h0 with h' | h'
    · exact absurd h' hσ
    · exact h'
  obtain ⟨t, rfl⟩ := exists_lerp_of_cross_eq_zero hne hcr
  have p1 := k _ hb e.start (Contour.start_mem_vertices he)
  have p2 := k _ ha e.finish (Contour.finish_mem_vertices he)
  have n1 : sideOf σ ⟨e.finish, b⟩ e.start ≠ 0 := by
    have := hcor _ _ _ he hb
    refine mul_ne_zero hσ fun h' => this ?_
    rw [← h']; simp only [cross]; ring
  have n2 : sideOf σ ⟨a, e.start⟩ e.finish ≠ 0 := mul_ne_zero hσ (hcor _ _ _ ha he)
  have q1 := hx _ hb
  have q2 := hx _ ha
  rw [sideOf_lerp] at q1 q2
  have z1 : sideOf σ ⟨e.finish, b⟩ e.finish = 0 := by simp [sideOf, cross]
  have z2 : sideOf σ ⟨a, e.start⟩ e.start = 0 := by simp only [sideOf, cross]; ring
  rw [z1, mul_zero, add_zero] at q1
  rw [z2, mul_zero, zero_add] at q2
  refine ⟨t, ?_, ?_, rfl⟩
  · exact le_of_mul_le_mul_right (by rwa [zero_mul]) (lt_of_le_of_ne p2 n2.symm)
  · have := le_of_mul_le_mul_right (a := sideOf σ ⟨e.finish, b⟩ e.start) (b := 0) (c := 1 - t) (by rwa [zero_mul])
      (lt_of_le_of_ne p1 n1.symm)
    linarith

/-- What is read for the next vertex of at most four ones. -/
theorem misread_few {c : Contour K} (h : c.Simple) (hfew : c.vertices.length ≤ 4) {p a w : Point K}
    (hm : c.Misread p a w) : w = p ∨ w = a ∨ ⟨p, w⟩ ∈ c.edgeList := by
  obtain ⟨i, hi, hp, ha, hw⟩ := hm
  have h3 := h.three
  have hnext : c.vertices[i + 1]? = some w → ⟨p, w⟩ ∈ c.edgeList := by
    intro hw
    have hlt : i + 1 < c.edgeList.length := by rw [Contour.length_edgeList]; exact hi
    have he : c.edgeList[i + 1]? = some c.edgeList[i + 1] := List.getElem?_eq_getElem hlt
    have h1 := Contour.edge_finish c he
    have h2 := Contour.edge_start c (by omega) (.inl ⟨rfl, hi⟩ : c.Next i (i + 1)) he
    rw [hw] at h1
    rw [hp] at h2
    have : c.edgeList[i + 1] = ⟨p, w⟩ := by rw [Option.some.inj h1, Option.some.inj h2]
    exact this ▸ List.getElem_mem hlt
  have hprev : 0 < i → c.vertices[i - 1]? = some a := by
    intro h0
    obtain ⟨j, hj⟩ := List.mem_iff_getElem?.mp ha
    have h1 := Contour.edge_finish c hj
    rw [← hp] at h1
    obtain rfl : j = i := ((List.getElem?_inj (by omega) h.nodup).mp h1.symm).symm
    exact Contour.edge_start c (by omega) (.inl ⟨by omega, by omega⟩ : c.Next (j - 1) j) hj
  rcases (show c.vertices.length = 3 ∨ c.vertices.length = 4 by omega) with hn | hn <;> rw [hn] at hw hi
  · rcases (show i = 0 ∨ i = 1 by omega) with rfl | rfl
    · norm_num at hw
      rw [hp] at hw
      exact .inl (Option.some.inj hw).symm
    · norm_num at hw
      exact .inr (.inr (hnext hw))
  · rcases (show i = 0 ∨ i = 1 ∨ i = 2 by omega) with rfl | rfl | rfl
    · norm_num at hw
      exact .inr (.inr (hnext hw))
    · norm_num at hw
      have := hprev one_pos
      norm_num at this
      rw [this] at hw
      exact .inr (.inl (Option.some.inj hw).symm)
    · norm_num at hw
      exact .inr (.inr (hnext hw))

/-- From a vertex of a clockwise convex contour with at most four vertices nothing looks as if it went outwards. -/
theorem few_seems {c : Contour K} (h : c.Simple) (hr : c.ConvexRight) (hfew : c.vertices.length ≤ 4) {p q : Point K}
    (hq : q ∉ c.exterior) {a w : Point K} (hm : c.Misread p a w) :
    0 ≤ cross p a q ∧ 0 ≤ cross w p q ∨ 0 ≤ cross a p w ∧ (0 ≤ cross p a q ∨ 0 ≤ cross w p q) := by
  have hσ : (-1 : K) ≠ 0 := by simp
  have k : ∀ e ∈ c.edgeList, ∀ v ∈ c.vertices, 0 ≤ sideOf (-1 : K) e v := fun e he v hv => by
    simpa [sideOf] using hr e he v hv
  rw [(convex_locates h hσ k q).2.2] at hq
  push Not at hq
  have ha : ⟨a, p⟩ ∈ c.edgeList := by obtain ⟨i, -, -, ha, -⟩ := hm; exact ha
  rcases misread_few h hfew hm with rfl | rfl | hw
  · exact .inr ⟨by simp only [cross]; ring_nf; rfl, .inr (by simp [cross])⟩
  · refine .inr ⟨by simp [cross], ?_⟩
    rcases le_total 0 (cross p w q) with h' | h'
    · exact .inl h'
    · exact .inr (by rw [cross_flip]; linarith)
  · have h1 := hq _ ha
    have h2 := hq _ hw
    simp only [sideOf] at h1 h2
    exact .inl ⟨by rw [cross_flip]; linarith, by rw [cross_flip]; linarith⟩

/-- C85: `segment_in_region` is right for every segment if the contour is convex without superfluous vertices and listed
counterclockwise, or has at most four vertices. -/
theorem C85_segment_in_region {context : Context K} (hc : context.Exact) {s : Segment K} (hs : s.Nondegenerate)
    {c : Region K} (h : Contour.Simple c) (hconv : Contour.Convex c) (hcor : Contour.Cornered c)
    (hside : Contour.ConvexLeft c ∨ (Contour.vertices c).length ≤ 4) (r : Relation) :
    planar.segmentInRegion s c context = .ok r ↔ SegmentRegionRel s c r := by
  suffices hsuf : ∃ r, planar.segmentInRegion s c context = .ok r ∧ SegmentRegionRel s c r by
    obtain ⟨r', e, hr'⟩ := hsuf
    rw [e]
    constructor
    · intro h; cases h; exact hr'
    · intro h'
      rw [LinearCompoundRel.unique ⟨_, s.start_mem⟩ (Contour.interior_pts c) (Contour.interior_exterior c)
        (Contour.exterior_pts c) hr' h']
  obtain ⟨σ, hσ, k⟩ := convex_side hconv
  have loc := convex_locates h hσ k
  obtain ⟨j1, -, -⟩ := convex_segment h hconv (s := s)
  have cov : ∀ x, x ∉ Contour.pts c → x ∈ Contour.interior c ∨ x ∈ Contour.exterior c := fun x => Contour.cover
  have empty : s.start ∉ Contour.exterior c → s.finish ∉ Contour.exterior c → s.pts ∩ Contour.exterior c = ∅ :=
    fun h1 h2 => Set.eq_empty_iff_forall_notMem.mpr fun x hx => j1 h1 h2 x hx.1 hx.2
  by_cases hno : SharesPiece s.pts (Contour.pts c)
  · -- the segment runs along an edge
    obtain ⟨e, he, hnt⟩ := (sharesPiece_iff _ _).mp hno
    have line : ∀ x ∈ s.pts, sideOf σ e x = 0 := by
      obtain ⟨x, ⟨⟨t, -, -, hx⟩, u, -, -, hx'⟩, y, ⟨⟨t', -, -, hy⟩, u', -, -, hy'⟩, hxy⟩ := hnt
      have hx0 : sideOf σ e x = 0 := by rw [hx', sideOf, cross_lerp_self, mul_zero]
      have hy0 : sideOf σ e y = 0 := by rw [hy', sideOf, cross_lerp_self, mul_zero]
      rw [hx, sideOf_lerp] at hx0
      rw [hy, sideOf_lerp] at hy0
      have htt : t ≠ t' := fun h' => hxy (by rw [hx, hy, h'])
      rintro _ ⟨v, -, -, rfl⟩
      rw [sideOf_lerp]
      have e1 : (t' - t) * (sideOf σ e s.finish - sideOf σ e s.start) = 0 := by linear_combination hy0 - hx0
      have e2 := (mul_eq_zero.mp e1).resolve_left (sub_ne_zero.mpr htt.symm)
      linear_combination hx0 + (v - t) * e2
    have noI : s.pts ∩ Contour.interior c = ∅ := Set.eq_empty_iff_forall_notMem.mpr fun x hx =>
      absurd (line x hx.1) (((loc x).1.mp hx.2) e he).ne'
    have hB : (s.pts ∩ Contour.pts c).Nonempty := by
      obtain ⟨x, hx, -⟩ := hnt
      exact ⟨x, hx.1, e, he, hx.2⟩
    obtain ⟨r, hr, ha⟩ := C83_segment_in_region hc hs h
    obtain ⟨a1, a2, -, -, a5⟩ := (ha r).mpr rfl
    change CrossesEdges c s → _ at a1
    change ¬ CrossesEdges c s → _ at a5
    have hX : ¬ CrossesEdges c s := fun hX => (h.crosses_edges hs hX).1.ne_empty noI
    refine ⟨r, hr, ?_⟩
    by_cases hE : s.pts ∩ Contour.exterior c = ∅
    · have on : s.pts ⊆ e.pts := fun x hx => cornered_edge h hσ k hcor he
        (fun h' => Set.eq_empty_iff_forall_notMem.mp hE x ⟨hx, h'⟩) (line x hx)
      rw [a2 ⟨e, he, on⟩]
      exact on.trans (subset_segsPts he)
    · have hE' := Set.nonempty_iff_ne_empty.mpr hE
      have hY : ¬ ∃ e ∈ Contour.edgeList c, s.pts ⊆ e.pts := by
        rintro ⟨e', he', hsub⟩
        obtain ⟨x, x1, x2⟩ := hE'
        exact Set.eq_empty_iff_forall_notMem.mp (Contour.exterior_pts c) x ⟨⟨e', he', hsub x1⟩, x2⟩
      have hO : Contour.SeemsOutside c s := by
        by_cases h1 : s.start ∈ Contour.exterior c
        · exact .inl h1
        · have h2 : s.finish ∈ Contour.exterior c := by
            by_contra h2
            exact hE (empty h1 h2)
          refine .inr ⟨?_, .inl h2⟩
          by_contra h3
          rcases cov _ h3 with h4 | h4
          · exact Set.eq_empty_iff_forall_notMem.mp noI _ ⟨s.start_mem, h4⟩
          · exact h1 h4
      rw [(a5 hX hY hB).1 hO]
      exact ⟨noI, hE', hB⟩
  -- it does not
  by_cases hcc : Counterclockwise c
  · exact C43_segment_in_region hc hs h hno (.inl hcc)
  by_cases h1 : s.start ∈ Contour.pts c
  swap
  · exact C43_segment_in_region hc hs h hno (.inr (.inl h1))
  by_cases h2 : s.finish ∈ Contour.pts c
  swap
  · exact C43_segment_in_region hc hs h hno (.inr (.inr (.inl h2)))
  have x1 : s.start ∉ Contour.exterior c := fun h' =>
    Set.eq_empty_iff_forall_notMem.mp (Contour.exterior_pts c) _ ⟨h1, h'⟩
  have x2 : s.finish ∉ Contour.exterior c := fun h' =>
    Set.eq_empty_iff_forall_notMem.mp (Contour.exterior_pts c) _ ⟨h2, h'⟩
  have hE := empty x1 x2
  obtain ⟨p, v, q, hl, hn⟩ := h.leastCorner
  have hneg : cross p v q < 0 := by
    by_contra h'
    exact hcc ⟨p, v, q, hl, lt_of_le_of_ne (not_lt.mp h') hn.symm⟩
  have hnl : ¬ Contour.ConvexLeft c := fun h' => by
    have := h' _ hl.edges.1 q (Contour.finish_mem_vertices hl.edges.2)
    exact absurd hneg (not_lt.mpr this)
  have hcr := hconv.resolve_left hnl
  have hfew := hside.resolve_left hnl
  have hcl : Contour.Clockwise c := ⟨p, v, q, hl, hneg⟩
  have ho : ∀ {x y : Point K}, x ∈ s.pts → y ∈ s.pts → ¬ Contour.Outwards c x y := by
    rintro x y hx hy ⟨t, t0, t1, hO⟩
    exact Set.eq_empty_iff_forall_notMem.mp hE _ ⟨Segment.pts_subset hx hy ⟨t, t0.le, t1, rfl⟩, hO t t0 le_rfl⟩
  have hO : ¬ Contour.SeemsOutside c s := by
    rintro (h' | ⟨-, h' | ⟨-, h' | h'⟩⟩)
    · exact x1 h'
    · exact x2 h'
    · by_cases hv : s.finish ∈ Contour.vertices c
      · obtain ⟨a, w, hm, hif⟩ := h'.1 ⟨hcl, hv⟩
        rcases few_seems h hcr hfew x1 hm with ⟨k1, k2⟩ | ⟨k1, k2⟩
        · split_ifs at hif
          · rcases hif with h' | h' <;> linarith
          · linarith [hif.1]
        · rw [if_neg (not_lt.mpr k1)] at hif
          rcases k2 with k2 | k2 <;> linarith [hif.1, hif.2]
      · exact ho s.finish_mem s.start_mem (h'.2 fun h'' => hv h''.2)
    · by_cases hv : s.start ∈ Contour.vertices c
      · obtain ⟨a, w, hm, hif, hif'⟩ := h'.1 ⟨hcl, hv⟩
        rcases few_seems h hcr hfew x2 hm with ⟨k1, k2⟩ | ⟨k1, -⟩
        · rcases hif' with h' | h' <;> linarith
        · linarith
      · exact ho s.start_mem s.finish_mem (h'.2 fun h'' => hv h''.2).1
  have hB : (s.pts ∩ Contour.pts c).Nonempty := ⟨_, s.start_mem, h1⟩
  obtain ⟨r, hr, ha⟩ := C83_segment_in_region hc hs h
  obtain ⟨-, -, -, -, a5⟩ := (ha r).mpr rfl
  change ¬ CrossesEdges c s → _ at a5
  have hX : ¬ CrossesEdges c s := fun hX => (h.crosses_edges hs hX).2.ne_empty hE
  have hnB : ¬ s.pts ⊆ Contour.pts c := fun h' => hno ⟨s, hs, subset_rfl, h'⟩
  have hY : ¬ ∃ e ∈ Contour.edgeList c, s.pts ⊆ e.pts := fun ⟨e, he, hse⟩ => hnB (hse.trans (subset_segsPts he))
  refine ⟨r, hr, ?_⟩
  rw [(a5 hX hY hB).2 hO]
  refine ⟨hE, ?_, hB⟩
  obtain ⟨x, y1, y2⟩ := Set.not_subset.mp hnB
  exact ⟨x, y1, (cov x y2).resolve_right fun h' => Set.eq_empty_iff_forall_notMem.mp hE x ⟨y1, h'⟩⟩

/-- A simple contour with three vertices is convex without superfluous vertices. -/
theorem triangle {c : Contour K} (h : c.Simple) (h3 : c.vertices.length = 3) : c.Convex ∧ c.Cornered := by
  obtain ⟨vs⟩ := c
  obtain ⟨x, y, z, rfl⟩ := List.length_eq_three.mp h3
  have he : ∀ e, e ∈ (⟨[x, y, z]⟩ : Contour K).edgeList ↔ e = ⟨z, x⟩ ∨ e = ⟨x, y⟩ ∨ e = ⟨y, z⟩ := by
    intro e
    simp [Contour.edgeList]
  obtain ⟨p, v, q, hl, hn⟩ := h.leastCorner
  have h0 : cross x y z ≠ 0 := by
    obtain ⟨k1, k2⟩ := hl.edges
    rw [he] at k1 k2
    intro h0
    simp only [Segment.mk.injEq] at k1 k2
    apply hn
    simp only [cross] at h0 ⊢
    rcases k1 with ⟨rfl, rfl⟩ | ⟨rfl, rfl⟩ | ⟨rfl, rfl⟩ <;>
      rcases k2 with ⟨k2, rfl⟩ | ⟨k2, rfl⟩ | ⟨k2, rfl⟩ <;> (try subst k2) <;> linear_combination h0
  have hv : ∀ e ∈ (⟨[x, y, z]⟩ : Contour K).edgeList, ∀ v ∈ (⟨[x, y, z]⟩ : Contour K).vertices,
      cross e.start e.finish v = 0 ∨ cross e.start e.finish v = cross x y z := by
    intro e hm v hv
    rw [he] at hm
    simp only [List.mem_cons, List.not_mem_nil, or_false] at hv
    rcases hm with rfl | rfl | rfl <;> rcases hv with rfl | rfl | rfl <;>
      first | (right; rfl) | (left; simp only [cross]; ring1) | (right; simp only [cross]; ring1)
  constructor
  · rcases lt_or_gt_of_ne h0 with h' | h'
    · refine .inr fun e hm v hw => ?_
      rcases hv e hm v hw with e0 | e0 <;> rw [e0]
      exact h'.le
    · refine .inl fun e hm v hw => ?_
      rcases hv e hm v hw with e0 | e0 <;> rw [e0]
      exact h'.le
  · intro a w b k1 k2
    have n1 := h.nondegenerate k1
    have n2 := h.nondegenerate k2
    have hnd := h.nodup
    rw [he] at k1 k2
    simp only [Segment.mk.injEq] at k1 k2
    simp only [List.nodup_cons, List.mem_cons, List.not_mem_nil, or_false, not_or] at hnd
    intro hcr
    apply h0
    simp only [cross] at hcr ⊢
    rcases k1 with ⟨rfl, rfl⟩ | ⟨rfl, rfl⟩ | ⟨rfl, rfl⟩ <;>
      rcases k2 with ⟨k2, rfl⟩ | ⟨k2, rfl⟩ | ⟨k2, rfl⟩ <;> (try simp_all) <;> linear_combination hcr

/-- C85: `segment_in_region` is right about triangles. -/
theorem C85_triangle {context : Context K} (hc : context.Exact) {s : Segment K} (hs : s.Nondegenerate) {c : Region K}
    (h : Contour.Simple c) (h3 : (Contour.vertices c).length = 3) (r : Relation) :
    planar.segmentInRegion s c context = .ok r ↔ SegmentRegionRel s c r :=
  C85_segment_in_region hc hs h (triangle h h3).1 (triangle h h3).2 (.inr (by omega)) r

/-- C85: `segment_in_polygon` is right if the border is like that, the holes do not touch it, and they touch each other in
common vertices only. -/
theorem C85_segment_in_polygon {context : Context K} (hc : context.Exact) {s : Segment K} (hs : s.Nondegenerate)
    {g : Polygon K} (hg : g.Valid) (hconv : g.border.Convex) (hcor : g.border.Cornered)
    (hside : g.border.ConvexLeft ∨ g.border.vertices.length ≤ 4) (hneat : Neat (g.holes.flatMap Contour.edgeList))
    (hoff : g.border.pts ∩ Multiregion.pts g.holes = ∅) (r : Relation) :
    planar.segmentInPolygon s g context = .ok r ↔ LinearCompoundRel s.pts g.interior g.pts g.exterior r := by
  obtain ⟨r₀, hr₀, -⟩ := C66_always_answers hc hs hg.border
  have h₀ := (C85_segment_in_region hc hs hg.border hconv hcor hside r₀).mp hr₀
  obtain ⟨q, hq, h⟩ := C26_segment_in_polygon hc hs hg hr₀ h₀
  have h : LinearCompoundRel s.pts g.interior g.pts g.exterior q := by
    rcases h with h | ⟨-, h | h, -⟩ | ⟨-, h, -⟩
    · exact h
    · exact absurd hoff h
    · exact absurd hneat h
    · exact absurd hoff h
  rw [hq]
  obtain ⟨b1, b2, b3⟩ := polygon_apart hg
  constructor
  · intro h'; cases h'; exact h
  · intro h'
    rw [LinearCompoundRel.unique ⟨_, s.start_mem⟩ b1 b2 b3 h h']

/-! ### Concrete cases -/

/-- A convex pentagon, counterclockwise. -/
def exampleUpright : Contour ℚ := ⟨[⟨4, 0⟩, ⟨5, 3⟩, ⟨2, 5⟩, ⟨-1, 3⟩, ⟨0, 0⟩]⟩

/-- With a triangular hole. -/
def exampleHoled : Polygon ℚ := ⟨exampleUpright, [⟨[⟨1, 1⟩, ⟨3, 1⟩, ⟨2, 3⟩]⟩]⟩

theorem exampleUpright_convex : exampleUpright.ConvexLeft := by
  unfold Contour.ConvexLeft
  decide +kernel

theorem exampleUpright_cornered : exampleUpright.Cornered := by
  intro a w b h1 h2
  have h : ∀ e ∈ exampleUpright.edgeList, ∀ f ∈ exampleUpright.edgeList, e.finish = f.start →
      cross e.start e.finish f.finish ≠ 0 := by decide +kernel
  exact h _ h1 _ h2 rfl

/-- The diagonal which is answered to `TOUCH` the pentagon if it is listed clockwise (`C83_example_wrong`). -/
theorem C85_example :
    SegmentRegionRel ⟨⟨2, 5⟩, ⟨4, 0⟩⟩ exampleUpright .enclosed := by
  refine (C85_segment_in_region (s := ⟨⟨2, 5⟩, ⟨4, 0⟩⟩) reference.context_exact
    (show (⟨2, 5⟩ : Point ℚ) ≠ ⟨4, 0⟩ by decide +kernel) (Contour.simple_of_check (by decide +kernel))
    (.inl exampleUpright_convex) exampleUpright_cornered (.inl exampleUpright_convex) _).mp (by decide +kernel)

/-- So more than four vertices have to be listed counterclockwise. -/
theorem C85_counterexample :
    exampleTurned.Simple ∧ exampleTurned.Convex ∧ exampleTurned.Cornered ∧
      planar.segmentInRegion ⟨⟨2, 5⟩, ⟨4, 0⟩⟩ exampleTurned (reference.context : Context ℚ) = .ok .touch ∧
      ¬ SegmentRegionRel ⟨⟨2, 5⟩, ⟨4, 0⟩⟩ exampleTurned .touch := by
  refine ⟨exampleTurned_simple, .inr ?_, ?_, C83_example.1, C83_example_wrong⟩
  · unfold Contour.ConvexRight
    decide +kernel
  · intro a w b h1 h2
    have h : ∀ e ∈ exampleTurned.edgeList, ∀ f ∈ exampleTurned.edgeList, e.finish = f.start →
        cross e.start e.finish f.finish ≠ 0 := by decide +kernel
    exact h _ h1 _ h2 rfl

/-- And there must be no vertices on the edges: a part of the contour is answered to be `ENCLOSED`. -/
theorem C85_counterexample_superfluous :
    let c : Contour ℚ := ⟨[⟨0, 0⟩, ⟨2, 0⟩, ⟨4, 0⟩, ⟨0, 4⟩]⟩
    c.Simple ∧ c.ConvexLeft ∧
      planar.segmentInRegion ⟨⟨0, 0⟩, ⟨4, 0⟩⟩ c (reference.context : Context ℚ) = .ok .enclosed := by
  refine ⟨Contour.simple_of_check (by decide +kernel), ?_, by decide +kernel⟩
  unfold Contour.ConvexLeft
  decide +kernel

/-- A segment from a vertex of the border into the hole. -/
theorem C85_example_polygon :
    LinearCompoundRel (⟨⟨-1, 3⟩, ⟨3, 1⟩⟩ : Segment ℚ).pts exampleHoled.interior exampleHoled.pts exampleHoled.exterior
      .cross := by
  refine (C85_segment_in_polygon (s := ⟨⟨-1, 3⟩, ⟨3, 1⟩⟩) reference.context_exact
    (show (⟨-1, 3⟩ : Point ℚ) ≠ ⟨3, 1⟩ by decide +kernel) (Polygon.valid_of_check (by decide +kernel))
    (.inl exampleUpright_convex) exampleUpright_cornered (.inl exampleUpright_convex) (neat_of_check (by decide +kernel))
    ?_ _).mp (by decide +kernel)
  have h : exampleUpright.pts ∩ (⟨[⟨1, 1⟩, ⟨3, 1⟩, ⟨2, 3⟩]⟩ : Contour ℚ).pts = ∅ :=
    C36_contour_in_contour_sound (a := exampleUpright) (b := ⟨[⟨1, 1⟩, ⟨3, 1⟩, ⟨2, 3⟩]⟩) (r := .disjoint)
      reference.context_exact (Contour.simple_of_check (by decide +kernel)) (Contour.simple_of_check (by decide +kernel))
      (by simp) (by decide +kernel)
  simpa [Multiregion.pts, exampleHoled] using h

end Orient.Props
