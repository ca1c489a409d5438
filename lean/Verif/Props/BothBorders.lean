import Verif.Props.Borders
import Verif.Props.Itself
import Verif.Props.Filled

/-! C91: the relation of two regions is told by the relations of their boundaries. -/

set_option linter.unusedSectionVars false

namespace Orient.Props

variable {K : Type} [Field K] [LinearOrder K] [IsStrictOrderedRing K]

section

variable {context : Context K} (hc : context.Exact)
include hc

/-- What the two contours answer, from the answer about the regions. -/
theorem bothBorders_of_regions {a b : Contour K} (ha : a.Simple) (hb : b.Simple) : ∃ r x y,
    planar.regionInRegion a b context = .ok r ∧ planar.contourInRegion a b context = .ok x ∧
      planar.contourInRegion b a context = .ok y ∧ r.bothBorders = some (x, y) := by
  obtain ⟨r, x, hr, hx, h1⟩ := C59_regions hc ha hb
  obtain ⟨r', y, hr', hy, h2⟩ := C59_regions hc hb ha
  have := C23_regions hc ha hb
  rw [hr, hr'] at this
  obtain rfl : r' = r.complement := Except.ok.inj this
  refine ⟨r, x, y, hr, hx, hy, ?_⟩
  cases r <;> simp only [Relation.regionBorder, Relation.complement, List.cons.injEq, and_true, reduceCtorEq] at h1 h2 <;>
    subst h1 h2 <;> rfl

/-- C91: the answer about two regions is told by the two answers about the boundary of one and the other region, and
the other way around. -/
theorem C91_regions {a b : Contour K} (ha : a.Simple) (hb : b.Simple) (r : Relation) :
    planar.regionInRegion a b context = .ok r ↔ ∃ x y, r.bothBorders = some (x, y) ∧
      planar.contourInRegion a b context = .ok x ∧ planar.contourInRegion b a context = .ok y := by
  obtain ⟨r', x, y, hr, hx, hy, h⟩ := bothBorders_of_regions hc ha hb
  constructor
  · intro k
    obtain rfl : r' = r := Except.ok.inj (hr.symm.trans k)
    exact ⟨x, y, h, hx, hy⟩
  · rintro ⟨x', y', h', hx', hy'⟩
    obtain rfl : x = x' := Except.ok.inj (hx.symm.trans hx')
    obtain rfl : y = y' := Except.ok.inj (hy.symm.trans hy')
    suffices r' = r by rw [← this, hr]
    cases r <;> cases r' <;> simp only [Relation.bothBorders, Option.some.injEq, Prod.mk.injEq, reduceCtorEq] at h h' <;>
      first | rfl | (obtain ⟨rfl, rfl⟩ := h; simp at h')

/-- C91: only some pairs of answers about the boundaries are possible. -/
theorem C91_pairs {a b : Contour K} (ha : a.Simple) (hb : b.Simple) : ∃ x y,
    planar.contourInRegion a b context = .ok x ∧ planar.contourInRegion b a context = .ok y ∧
      (x, y) ∈ [(Relation.disjoint, Relation.disjoint), (.touch, .touch), (.cross, .cross), (.component, .component),
        (.disjoint, .within), (.within, .disjoint), (.touch, .enclosed), (.enclosed, .touch)] := by
  obtain ⟨r, x, y, -, hx, hy, h⟩ := bothBorders_of_regions hc ha hb
  refine ⟨x, y, hx, hy, ?_⟩
  cases r <;> simp only [Relation.bothBorders, Option.some.injEq, Prod.mk.injEq, reduceCtorEq] at h <;>
    obtain ⟨rfl, rfl⟩ := h <;> simp

/-- C91: if the boundary of the first region is outside of the second one, one vertex of the second one tells whether it
is covered. -/
theorem C91_vertex {a b : Contour K} (ha : a.Simple) (hb : b.Simple)
    (h : planar.contourInRegion a b context = .ok .disjoint) {v : Point K} (hv : v ∈ b.pts) :
    (planar.pointInRegion v a context = .interior ∧ planar.regionInRegion a b context = .ok .cover) ∨
      (planar.pointInRegion v a context = .exterior ∧ planar.regionInRegion a b context = .ok .disjoint) := by
  obtain ⟨r, x, y, hr, hx, hy, k⟩ := bothBorders_of_regions hc ha hb
  obtain rfl : x = .disjoint := Except.ok.inj (hx.symm.trans h)
  rw [hr]
  have rel := (C33_contour_in_region_iff hc hb ha y).mp hy
  cases r <;> simp only [Relation.bothBorders, Option.some.injEq, Prod.mk.injEq, reduceCtorEq, false_and] at k
  · obtain ⟨-, rfl⟩ := k
    exact .inr ⟨(C10_point_in_region_unique hc v a .exterior).mpr (rel hv), rfl⟩
  · obtain ⟨-, rfl⟩ := k
    exact .inl ⟨(C10_point_in_region_unique hc v a .interior).mpr (rel hv), rfl⟩

/-- C91: if the contours have no common points, a point of each of them tells the relation of the regions. -/
theorem C91_apart {a b : Contour K} (ha : a.Simple) (hb : b.Simple)
    (h : planar.contourInContour a b context = .ok .disjoint) {u v : Point K} (hu : u ∈ a.pts) (hv : v ∈ b.pts) :
    (planar.pointInRegion u b context, planar.pointInRegion v a context, planar.regionInRegion a b context)
      ∈ [(Location.exterior, Location.exterior, Except.ok Relation.disjoint), (.interior, .exterior, .ok .within),
        (.exterior, .interior, .ok .cover)] := by
  obtain ⟨r, x, hr, hx, h1⟩ := C90_contour hc ha hb
  obtain rfl : r = .disjoint := Except.ok.inj (hr.symm.trans h)
  simp only [Relation.contourFilled, List.mem_cons, List.not_mem_nil, or_false] at h1
  have rel := (C33_contour_in_region_iff hc ha hb x).mp hx
  rcases h1 with rfl | rfl
  · have e : planar.pointInRegion u b context = .exterior := (C10_point_in_region_unique hc u b .exterior).mpr (rel hu)
    rcases C91_vertex hc ha hb hx hv with ⟨k1, k2⟩ | ⟨k1, k2⟩ <;> simp [e, k1, k2]
  · have e : planar.pointInRegion u b context = .interior := (C10_point_in_region_unique hc u b .interior).mpr (rel hu)
    obtain ⟨r, x, y, hr, hx', hy, k⟩ := bothBorders_of_regions hc ha hb
    obtain rfl : x = .within := Except.ok.inj (hx'.symm.trans hx)
    cases r <;> simp only [Relation.bothBorders, Option.some.injEq, Prod.mk.injEq, reduceCtorEq, false_and] at k
    obtain ⟨-, rfl⟩ := k
    have rel' := (C33_contour_in_region_iff hc hb ha .disjoint).mp hy
    have e' : planar.pointInRegion v a context = .exterior := (C10_point_in_region_unique hc v a .exterior).mpr (rel' hv)
    simp [e, e', hr]

end

/-- C91 applies: all eight pairs. -/
theorem C91_example :
    let a : Contour ℚ := ⟨[⟨0, 0⟩, ⟨8, 0⟩, ⟨8, 8⟩, ⟨0, 8⟩]⟩
    let l : List (Contour ℚ) := [⟨[⟨9, 0⟩, ⟨10, 0⟩, ⟨9, 1⟩]⟩, ⟨[⟨8, 0⟩, ⟨10, 0⟩, ⟨9, 1⟩]⟩, ⟨[⟨7, 0⟩, ⟨10, 0⟩, ⟨9, 1⟩]⟩, a,
      ⟨[⟨1, 1⟩, ⟨2, 1⟩, ⟨1, 2⟩]⟩, ⟨[⟨-1, -1⟩, ⟨20, -1⟩, ⟨-1, 20⟩]⟩, ⟨[⟨0, 0⟩, ⟨2, 1⟩, ⟨1, 2⟩]⟩, ⟨[⟨0, 0⟩, ⟨16, 0⟩, ⟨0, 16⟩]⟩]
    a.Simple ∧ (∀ b ∈ l, b.Simple) ∧ l.map (fun b => planar.regionInRegion a b (reference.context : Context ℚ))
      = [.ok .disjoint, .ok .touch, .ok .overlap, .ok .equal, .ok .cover, .ok .within, .ok .encloses, .ok .enclosed] := by
  intro a l
  have key : ∀ c ∈ l, reference.isSimple c = true := by decide +kernel
  exact ⟨Contour.simple_of_check (by decide +kernel), fun c hm => Contour.simple_of_check (key c hm), by decide +kernel⟩

end Orient.Props
