import Verif.Model.Planar
import Verif.Lemmas.RegionPath
import Verif.Lemmas.Reference
import Verif.Spec.Affine
import Mathlib.Logic.Relation
import Mathlib.Algebra.Field.Rat
import Mathlib.Algebra.Order.Ring.Rat

/-! C10, C11, C12, C31: locating a point in a region. -/

set_option linter.unusedSectionVars false

namespace Orient.Props

variable {K : Type} [Field K] [LinearOrder K] [IsStrictOrderedRing K]

theorem not_even_iff_odd' {n : Nat} : ¬ Even n ↔ Odd n := Nat.not_even_iff_odd

/-- C10: the boundary is the contour; off the contour the answer is the even-odd rule for every ray
which avoids the vertices. -/
theorem C10_point_in_region {context : Context K} (hc : context.Exact) (p : Point K) (c : Region K) :
    (planar.pointInRegion p c context = .boundary ↔ p ∈ Contour.pts c) ∧
    ∀ d, IsDirection d → AvoidsVertices c p d → p ∉ Contour.pts c →
      (planar.pointInRegion p c context = .interior ↔ Odd (edgesMeeting c (ray p d))) ∧
      (planar.pointInRegion p c context = .exterior ↔ Even (edgesMeeting c (ray p d))) := by
  refine ⟨locatePoint_boundary_iff hc c p, fun d hd hv hp => ?_⟩
  have := locatePoint_eq_of_ray hc c hp hd hv
  unfold planar.pointInRegion
  rw [this, ← not_even_iff_odd']
  split_ifs with h <;> simp [h]

/-- C10: rays that avoid the vertices exist for every point that is not a vertex, so the previous
theorem determines the answer; the answer is the location of the specification, and the only one. -/
theorem C10_point_in_region_unique {context : Context K} (hc : context.Exact) (p : Point K)
    (c : Region K) (l : Location) :
    planar.pointInRegion p c context = l ↔ Locates c p l := by
  obtain ⟨hb, hr⟩ := C10_point_in_region hc p c
  by_cases hp : p ∈ Contour.pts c
  · rw [hb.mpr hp]
    cases l <;> simp [Locates, hp]
  · obtain ⟨d, hd, hv⟩ := exists_avoidsVertices c (fun h => hp (Contour.vertex_mem_pts h))
    cases l
    · constructor
      · intro h
        exact ⟨hp, fun d hd hv => ((hr d hd hv hp).2).mp h⟩
      · intro h; exact (hr d hd hv hp).2.mpr (h.2 d hd hv)
    · exact hb
    · constructor
      · intro h
        exact ⟨hp, fun d hd hv => ((hr d hd hv hp).1).mp h⟩
      · intro h; exact (hr d hd hv hp).1.mpr (h.2 d hd hv)

/-- A non-convex contour, and points in all three locations. -/
example : let c : Contour ℚ := ⟨[⟨0, 0⟩, ⟨4, 0⟩, ⟨4, 2⟩, ⟨2, 2⟩, ⟨2, 4⟩, ⟨0, 4⟩]⟩
    planar.pointInRegion ⟨1, 3⟩ c (reference.context : Context ℚ) = .interior ∧
    planar.pointInRegion ⟨3, 3⟩ c (reference.context : Context ℚ) = .exterior ∧
    planar.pointInRegion ⟨3, 2⟩ c (reference.context : Context ℚ) = .boundary ∧
    Locates c ⟨1, 3⟩ .interior := by
  refine ⟨by decide +kernel, by decide +kernel, by decide +kernel, ?_⟩
  rw [← C10_point_in_region_unique reference.context_exact]
  decide +kernel

/-- C11: points joined by a polyline that does not meet the contour have the same location. -/
theorem C11_constant_along_polylines {context : Context K} (hc : context.Exact) (c : Region K)
    {p q : Point K}
    (h : Relation.ReflTransGen
      (fun a b : Point K => Disjoint (⟨a, b⟩ : Segment K).pts (Contour.pts c)) p q) :
    planar.pointInRegion p c context = planar.pointInRegion q c context := by
  induction h with
  | refl => rfl
  | tail _ h ih => rw [ih]; exact locatePoint_eq_of_disjoint hc c h

/-- C11: points outside of the bounding box are in the exterior. -/
theorem C11_exterior_outside_box {context : Context K} (hc : context.Exact) (c : Region K)
    {b : Box K} (hb : IsBoxOf b (Contour.pts c)) {p : Point K}
    (hp : p.x < b.minX ∨ b.maxX < p.x ∨ p.y < b.minY ∨ b.maxY < p.y) :
    planar.pointInRegion p c context = .exterior := by
  have hn : p ∉ Contour.pts c := by
    intro h
    rcases hp with hp | hp | hp | hp
    · exact absurd (hb.minX_le p h) (not_le.mpr hp)
    · exact absurd (hb.le_maxX p h) (not_le.mpr hp)
    · exact absurd (hb.minY_le p h) (not_le.mpr hp)
    · exact absurd (hb.le_maxY p h) (not_le.mpr hp)
  have key : ∀ d : Point K, IsDirection d → (∀ q ∈ ray p d, q ∉ Contour.pts c) →
      planar.pointInRegion p c context = .exterior := by
    intro d hd hq
    have hv : AvoidsVertices c p d := fun v hv hr => hq v hr (Contour.vertex_mem_pts hv)
    rw [((C10_point_in_region hc p c).2 d hd hv hn).2]
    have : edgesMeeting c (ray p d) = 0 := by
      classical
      unfold edgesMeeting
      rw [List.countP_eq_zero]
      intro e he
      simp only [decide_eq_true_eq]
      rintro ⟨r, hr, hr'⟩
      exact hq r hr' ⟨e, he, hr⟩
    rw [this]; exact ⟨0, rfl⟩
  rcases hp with hp | hp | hp | hp
  · refine key ⟨-1, 0⟩ (Or.inl (by simp)) ?_
    rintro q ⟨t, t0, rfl⟩ hq
    have := hb.minX_le _ hq
    simp only at this; linarith
  · refine key ⟨1, 0⟩ (Or.inl (by simp)) ?_
    rintro q ⟨t, t0, rfl⟩ hq
    have := hb.le_maxX _ hq
    simp only at this; linarith
  · refine key ⟨0, -1⟩ (Or.inr (by simp)) ?_
    rintro q ⟨t, t0, rfl⟩ hq
    have := hb.minY_le _ hq
    simp only at this; linarith
  · refine key ⟨0, 1⟩ (Or.inr (by simp)) ?_
    rintro q ⟨t, t0, rfl⟩ hq
    have := hb.le_maxY _ hq
    simp only at this; linarith

/-- The hypotheses of C11 can be met: a contour has a box, and a polyline of two segments leads from
one arm of the "L" to the other inside of it. -/
example : IsBoxOf ((reference.context : Context ℚ).contourBox
    ⟨[⟨0, 0⟩, ⟨4, 0⟩, ⟨4, 2⟩, ⟨2, 2⟩, ⟨2, 4⟩, ⟨0, 4⟩]⟩)
    (⟨[⟨0, 0⟩, ⟨4, 0⟩, ⟨4, 2⟩, ⟨2, 2⟩, ⟨2, 4⟩, ⟨0, 4⟩]⟩ : Contour ℚ).pts :=
  reference.context_exact.contourBox _ (by simp)

/-- C31: along a segment which avoids the vertices the location changes with every edge met: the ends
(not on the contour) have the same location iff the number of edges met is even. -/
theorem C31_crossing_edges_flips {context : Context K} (hc : context.Exact) (c : Region K)
    {p q : Point K} (hp : p ∉ Contour.pts c) (hq : q ∉ Contour.pts c)
    (hv : ∀ v ∈ c.vertices, v ∉ (⟨p, q⟩ : Segment K).pts) :
    planar.pointInRegion p c context = planar.pointInRegion q c context ↔
      Even (edgesMeeting c (⟨p, q⟩ : Segment K).pts) :=
  locatePoint_eq_iff_even hc c hp hq hv

/-- The hypotheses of C31 can be met by ends with different locations. -/
example : let c : Contour ℚ := ⟨[⟨0, 0⟩, ⟨4, 0⟩, ⟨4, 2⟩, ⟨2, 2⟩, ⟨2, 4⟩, ⟨0, 4⟩]⟩
    (⟨1, 1⟩ : Point ℚ) ∉ c.pts ∧ (⟨5, 1⟩ : Point ℚ) ∉ c.pts ∧
    (∀ v ∈ c.vertices, v ∉ (⟨⟨1, 1⟩, ⟨5, 1⟩⟩ : Segment ℚ).pts) ∧
    planar.pointInRegion ⟨1, 1⟩ c (reference.context : Context ℚ)
      ≠ planar.pointInRegion ⟨5, 1⟩ c (reference.context : Context ℚ) := by
  intro c
  refine ⟨?_, ?_, ?_, by decide +kernel⟩
  · rw [← (C10_point_in_region reference.context_exact _ c).1]; decide +kernel
  · rw [← (C10_point_in_region reference.context_exact _ c).1]; decide +kernel
  · intro v hv h
    rw [← reference.context_exact.contains] at h
    revert v
    decide +kernel

/-- C12: rotating or reversing the vertices changes nothing. -/
theorem C12_representation {context : Context K} (hc : context.Exact) (p : Point K)
    (vs : List (Point K)) (k : Nat) :
    planar.pointInRegion p ⟨vs.rotate k⟩ context = planar.pointInRegion p ⟨vs⟩ context ∧
    planar.pointInRegion p ⟨vs.reverse⟩ context = planar.pointInRegion p ⟨vs⟩ context := by
  constructor
  · rw [C10_point_in_region_unique hc]
    have h := (C10_point_in_region_unique hc p ⟨vs⟩ _).mp rfl
    have e : ∀ S, edgesMeeting (⟨vs.rotate k⟩ : Contour K) S = edgesMeeting (⟨vs⟩ : Contour K) S := by
      intro S
      unfold edgesMeeting
      rw [Contour.edgeList_rotate, (List.rotate_perm _ _).countP_eq]
    have a : ∀ d, AvoidsVertices (⟨vs.rotate k⟩ : Contour K) p d ↔ AvoidsVertices ⟨vs⟩ p d := by
      intro d; simp [AvoidsVertices]
    revert h
    generalize planar.pointInRegion p ⟨vs⟩ context = l
    cases l <;> simp only [Locates, Contour.pts_rotate, e, a, imp_self]
  · rw [C10_point_in_region_unique hc]
    have h := (C10_point_in_region_unique hc p ⟨vs⟩ _).mp rfl
    have e : ∀ S, edgesMeeting (⟨vs.reverse⟩ : Contour K) S = edgesMeeting (⟨vs⟩ : Contour K) S := by
      intro S
      unfold edgesMeeting
      rw [Contour.edgeList_reverse, List.countP_reverse, List.countP_map,
        (List.rotate_perm _ _).countP_eq]
      apply List.countP_congr
      intro e _
      simp only [Function.comp_apply, decide_eq_true_eq, Segment.pts_reverse]
    have a : ∀ d, AvoidsVertices (⟨vs.reverse⟩ : Contour K) p d ↔ AvoidsVertices ⟨vs⟩ p d := by
      intro d; simp [AvoidsVertices]
    revert h
    generalize planar.pointInRegion p ⟨vs⟩ context = l
    cases l <;> simp only [Locates, Contour.pts_reverse, e, a, imp_self]

theorem affine_injective {f : Affine K} (hf : f.det ≠ 0) {p q : Point K} (h : f.apply p = f.apply q) :
    p = q := by
  have h1 := congrArg Point.x h
  have h2 := congrArg Point.y h
  simp only [Affine.apply] at h1 h2
  have e1 : f.det * (p.x - q.x) = 0 := by
    simp only [Affine.det]; linear_combination f.yy * h1 - f.xy * h2
  have e2 : f.det * (p.y - q.y) = 0 := by
    simp only [Affine.det]; linear_combination f.xx * h2 - f.yx * h1
  exact Point.ext (sub_eq_zero.mp ((mul_eq_zero.mp e1).resolve_left hf))
    (sub_eq_zero.mp ((mul_eq_zero.mp e2).resolve_left hf))

theorem affine_lerp (f : Affine K) (a b : Point K) (t : K) :
    f.apply (lerp a b t) = lerp (f.apply a) (f.apply b) t := by
  simp only [Affine.apply, lerp, Point.mk.injEq]; constructor <;> ring

theorem affine_mem_pts {f : Affine K} (hf : f.det ≠ 0) (e : Segment K) (p : Point K) :
    f.apply p ∈ (⟨f.apply e.start, f.apply e.finish⟩ : Segment K).pts ↔ p ∈ e.pts := by
  constructor
  · rintro ⟨t, t0, t1, h⟩
    simp only [← affine_lerp] at h
    exact ⟨t, t0, t1, affine_injective hf h⟩
  · rintro ⟨t, t0, t1, rfl⟩
    exact ⟨t, t0, t1, affine_lerp f _ _ t⟩

theorem affine_edgeList (f : Affine K) (c : Contour K) :
    (f.contour c).edgeList
      = c.edgeList.map (fun e => (⟨f.apply e.start, f.apply e.finish⟩ : Segment K)) := by
  simp only [Contour.edgeList, Affine.contour, List.length_map, ← List.map_rotate,
    List.map_zipWith, List.zipWith_map]

/-- C12: affine bijections, in particular translations, scalings, exchanging the coordinates and
rotations, applied to everything change nothing. -/
theorem C12_affine {context : Context K} (hc : context.Exact) {f : Affine K} (hf : f.det ≠ 0)
    (p : Point K) (c : Region K) :
    planar.pointInRegion (f.apply p) (f.contour c) context = planar.pointInRegion p c context := by
  have hpts : f.apply p ∈ (f.contour c).pts ↔ p ∈ Contour.pts c := by
    unfold Contour.pts segsPts
    rw [affine_edgeList]
    constructor
    · rintro ⟨e, he, hp⟩
      obtain ⟨e', he', rfl⟩ := List.mem_map.mp he
      exact ⟨e', he', (affine_mem_pts hf e' p).mp hp⟩
    · rintro ⟨e, he, hp⟩
      exact ⟨_, List.mem_map.mpr ⟨e, he, rfl⟩, (affine_mem_pts hf e p).mpr hp⟩
  by_cases hp : p ∈ Contour.pts c
  · rw [(C10_point_in_region hc p c).1.mpr hp,
      (C10_point_in_region hc _ (f.contour c)).1.mpr (hpts.mpr hp)]
  · obtain ⟨d, hd, hv⟩ := exists_avoidsVertices c (fun h => hp (Contour.vertex_mem_pts h))
    -- the image of the ray
    have hd' : IsDirection (⟨f.xx * d.x + f.xy * d.y, f.yx * d.x + f.yy * d.y⟩ : Point K) := by
      by_contra hn
      unfold IsDirection at hn
      push Not at hn
      have e1 : f.det * d.x = 0 := by
        simp only [Affine.det]; linear_combination f.yy * hn.1 - f.xy * hn.2
      have e2 : f.det * d.y = 0 := by
        simp only [Affine.det]; linear_combination f.xx * hn.2 - f.yx * hn.1
      rcases hd with hd | hd
      · exact hd ((mul_eq_zero.mp e1).resolve_left hf)
      · exact hd ((mul_eq_zero.mp e2).resolve_left hf)
    have hray : ∀ v, f.apply v ∈ ray (f.apply p)
        ⟨f.xx * d.x + f.xy * d.y, f.yx * d.x + f.yy * d.y⟩ ↔ v ∈ ray p d := by
      intro v
      have e : ∀ t : K, (⟨(f.apply p).x + t * (f.xx * d.x + f.xy * d.y),
          (f.apply p).y + t * (f.yx * d.x + f.yy * d.y)⟩ : Point K)
          = f.apply ⟨p.x + t * d.x, p.y + t * d.y⟩ := by
        intro t; simp only [Affine.apply, Point.mk.injEq]; constructor <;> ring
      constructor
      · rintro ⟨t, t0, h⟩
        rw [e] at h
        exact ⟨t, t0, affine_injective hf h⟩
      · rintro ⟨t, t0, rfl⟩
        exact ⟨t, t0, (e t).symm⟩
    have hv' : AvoidsVertices (f.contour c) (f.apply p)
        ⟨f.xx * d.x + f.xy * d.y, f.yx * d.x + f.yy * d.y⟩ := by
      intro v hv1 hv2
      obtain ⟨w, hw, rfl⟩ := List.mem_map.mp hv1
      exact hv w hw ((hray w).mp hv2)
    have hcount : edgesMeeting (f.contour c) (ray (f.apply p)
        ⟨f.xx * d.x + f.xy * d.y, f.yx * d.x + f.yy * d.y⟩) = edgesMeeting c (ray p d) := by
      classical
      unfold edgesMeeting
      rw [affine_edgeList, List.countP_map]
      apply List.countP_congr
      intro e _
      simp only [Function.comp_apply, decide_eq_true_eq]
      constructor
      · rintro ⟨q, ⟨t, t0, t1, rfl⟩, hq⟩
        simp only [← affine_lerp] at hq
        exact ⟨lerp e.start e.finish t, ⟨t, t0, t1, rfl⟩, (hray _).mp hq⟩
      · rintro ⟨q, ⟨t, t0, t1, rfl⟩, hq⟩
        exact ⟨f.apply (lerp e.start e.finish t), ⟨t, t0, t1, affine_lerp f _ _ t⟩, (hray _).mpr hq⟩
    have h1 := (C10_point_in_region hc (f.apply p) (f.contour c)).2 _ hd' hv' (fun h => hp (hpts.mp h))
    have h2 := (C10_point_in_region hc p c).2 d hd hv hp
    rw [hcount] at h1
    by_cases hev : Even (edgesMeeting c (ray p d))
    · rw [h1.2.mpr hev, h2.2.mpr hev]
    · have hodd := not_even_iff_odd'.mp hev
      rw [h1.1.mpr hodd, h2.1.mpr hodd]

/-- Exchanging the coordinates, a translation and a scaling are such maps. -/
example : (⟨0, 1, 1, 0, 0, 0⟩ : Affine ℚ).det ≠ 0 ∧ (⟨1, 0, 0, 1, 5, 7⟩ : Affine ℚ).det ≠ 0 ∧
    (⟨3, 0, 0, 3, 0, 0⟩ : Affine ℚ).det ≠ 0 ∧
    (⟨0, 1, 1, 0, 0, 0⟩ : Affine ℚ).apply ⟨1, 2⟩ = ⟨2, 1⟩ := by decide +kernel

end Orient.Props
