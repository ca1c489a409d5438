import Verif.Props.PointInRegion

/-! C14, C15, C16: locating a point in multiregions, polygons and multipolygons. -/

set_option linter.unusedSectionVars false

namespace Orient.Props

variable {K : Type} [Field K] [LinearOrder K] [IsStrictOrderedRing K]

theorem Locates.unique {c : Contour K} {p : Point K} {l l' : Location} (h : Locates c p l)
    (h' : Locates c p l') : l = l' := by
  have hc : (reference.context : Context K).Exact := reference.context_exact
  rw [← C10_point_in_region_unique hc] at h h'
  exact h.symm.trans h'

/-- Every point has a location. -/
theorem Locates.exists (c : Contour K) (p : Point K) : ∃ l, Locates c p l :=
  ⟨_, (C10_point_in_region_unique (reference.context_exact : (reference.context : Context K).Exact)
    p c _).mp rfl⟩

/-- Compatible parts: a point in the interior of one is in the exterior of the other. -/
def Compatible (a b : Contour K) : Prop :=
  ∀ p, (Locates a p .interior → Locates b p .exterior) ∧
    (Locates b p .interior → Locates a p .exterior)

/-- The first location which is not `EXTERIOR`. -/
theorem first_location {α : Type} (loc : α → Location) (f : List α → Location)
    (h0 : f [] = .exterior)
    (h1 : ∀ a l, f (a :: l) = if loc a ≠ .exterior then loc a else f l) (l : List α) :
    (f l = .exterior ↔ ∀ a ∈ l, loc a = .exterior) ∧
    (∀ r, r ≠ .exterior → (f l = r ↔ ∃ pre a post, l = pre ++ a :: post ∧
      (∀ b ∈ pre, loc b = .exterior) ∧ loc a = r)) := by
  induction l with
  | nil =>
    refine ⟨by simp [h0], ?_⟩
    intro r hr
    simp only [h0, List.nil_eq, List.append_eq_nil_iff, reduceCtorEq, and_false, false_and,
      exists_false, iff_false]
    exact Ne.symm hr
  | cons a l ih =>
    rw [h1]
    by_cases ha : loc a = .exterior
    · simp only [ha, ne_eq, not_true_eq_false, if_false, List.mem_cons, forall_eq_or_imp, true_and]
      refine ⟨ih.1, fun r hr => ?_⟩
      rw [ih.2 r hr]
      constructor
      · rintro ⟨pre, b, post, rfl, hpre, hb⟩
        exact ⟨a :: pre, b, post, rfl, by simpa [ha] using hpre, hb⟩
      · rintro ⟨pre, b, post, e, hpre, hb⟩
        cases pre with
        | nil =>
          simp only [List.nil_append, List.cons.injEq] at e
          rw [← e.1, ha] at hb
          exact absurd hb.symm hr
        | cons c pre =>
          simp only [List.cons_append, List.cons.injEq] at e
          exact ⟨pre, b, post, e.2, fun b hb => hpre b (by simp [hb]), hb⟩
    · simp only [ha, ne_eq, not_false_eq_true, if_true, List.mem_cons, forall_eq_or_imp, false_and,
        true_and]
      intro r hr
      constructor
      · intro h; exact ⟨[], a, l, rfl, by simp, h⟩
      · rintro ⟨pre, b, post, e, hpre, hb⟩
        cases pre with
        | nil =>
          simp only [List.nil_append, List.cons.injEq] at e
          rw [e.1]; exact hb
        | cons c pre =>
          simp only [List.cons_append, List.cons.injEq] at e
          exact absurd (e.1 ▸ hpre c (by simp)) ha

/-- For compatible parts the first location which is not `EXTERIOR` does not depend on the order. -/
theorem first_location_compatible {α : Type} (loc : α → Location) (f : List α → Location)
    (h0 : f [] = .exterior)
    (h1 : ∀ a l, f (a :: l) = if loc a ≠ .exterior then loc a else f l) (l : List α)
    (hl : l.Pairwise (fun a b => (loc a = .interior → loc b = .exterior) ∧
      (loc b = .interior → loc a = .exterior))) :
    (f l = .interior ↔ ∃ a ∈ l, loc a = .interior) ∧
    (f l = .boundary ↔ ∃ a ∈ l, loc a = .boundary) := by
  induction l with
  | nil => simp [h0]
  | cons a l ih =>
    rw [List.pairwise_cons] at hl
    have ih := ih hl.2
    rw [h1]
    cases ha : loc a
    · simp [ha, ih.1, ih.2]
    · simp only [ne_eq, reduceCtorEq, not_false_eq_true, if_true, List.mem_cons,
        exists_eq_or_imp, ha, true_or, false_or, false_iff, true_and, and_true, iff_true, not_exists,
        not_and]
      intro b hb hi
      have := (hl.1 b hb).2 hi
      rw [ha] at this
      exact absurd this (by simp)
    · simp only [ne_eq, reduceCtorEq, not_false_eq_true, if_true, List.mem_cons,
        exists_eq_or_imp, ha, true_or, false_or, false_iff, true_and, and_true, iff_true, not_exists,
        not_and]
      intro b hb hi
      have := (hl.1 b hb).1 ha
      rw [hi] at this
      exact absurd this (by simp)

/-- C14, any list of regions: the location in the first region that does not have the point in its
exterior. -/
theorem C14_point_in_multiregion_first {context : Context K} (hc : context.Exact) (p : Point K)
    (m : Multiregion K) :
    (planar.pointInMultiregion p m context = .exterior ↔ ∀ r ∈ m, Locates r p .exterior) ∧
    ∀ l, l ≠ .exterior → (planar.pointInMultiregion p m context = l ↔
      ∃ pre r post, m = pre ++ r :: post ∧ (∀ q ∈ pre, Locates q p .exterior) ∧ Locates r p l) := by
  have := first_location (fun r => region.locatePoint r p context)
    (fun m => multiregion.locatePoint m p context) rfl (fun a l => rfl) m
  have e : ∀ r l, region.locatePoint r p context = l ↔ Locates r p l :=
    fun r l => C10_point_in_region_unique hc p r l
  simp only [e] at this
  exact this

/-- C14, compatible regions: independence of the order. -/
theorem C14_point_in_multiregion {context : Context K} (hc : context.Exact) (p : Point K)
    (m : Multiregion K) (hm : m.Pairwise Compatible) :
    (planar.pointInMultiregion p m context = .interior ↔ ∃ r ∈ m, Locates r p .interior) ∧
    (planar.pointInMultiregion p m context = .boundary ↔ ∃ r ∈ m, p ∈ Contour.pts r) ∧
    (planar.pointInMultiregion p m context = .exterior ↔ ∀ r ∈ m, Locates r p .exterior) ∧
    ∀ m' : Multiregion K, m.Perm m' →
      planar.pointInMultiregion p m' context = planar.pointInMultiregion p m context := by
  have e : ∀ r l, region.locatePoint r p context = l ↔ Locates r p l :=
    fun r l => C10_point_in_region_unique hc p r l
  have key : ∀ m : Multiregion K, m.Pairwise Compatible →
      (planar.pointInMultiregion p m context = .interior ↔ ∃ r ∈ m, Locates r p .interior) ∧
      (planar.pointInMultiregion p m context = .boundary ↔ ∃ r ∈ m, Locates r p .boundary) := by
    intro m hm
    have := first_location_compatible (fun r => region.locatePoint r p context)
      (fun m => multiregion.locatePoint m p context) rfl (fun a l => rfl) m
      (hm.imp (fun {a b} h => by simp only [e]; exact h p))
    simp only [e] at this
    exact this
  have hk := key m hm
  refine ⟨hk.1, hk.2, (C14_point_in_multiregion_first hc p m).1, fun m' hp => ?_⟩
  have hm' : m'.Pairwise Compatible :=
    (hp.pairwise_iff (fun {a b} h q => ⟨(h q).2, (h q).1⟩)).mp hm
  have hk' := key m' hm'
  have hi : planar.pointInMultiregion p m' context = .interior ↔
      planar.pointInMultiregion p m context = .interior := by
    rw [hk.1, hk'.1]; simp only [hp.mem_iff]
  have hb : planar.pointInMultiregion p m' context = .boundary ↔
      planar.pointInMultiregion p m context = .boundary := by
    rw [hk.2, hk'.2]; simp only [hp.mem_iff]
  cases h : planar.pointInMultiregion p m context
  · cases h' : planar.pointInMultiregion p m' context
    · rfl
    · rw [h, h'] at hb; exact absurd (hb.mp rfl) (by simp)
    · rw [h, h'] at hi; exact absurd (hi.mp rfl) (by simp)
  · exact hb.mpr h
  · exact hi.mpr h

/-- Regions on both sides of a line are compatible. -/
theorem compatible_of_boxes {a b : Contour K} {u v : Box K} (ha : IsBoxOf u a.pts)
    (hb : IsBoxOf v b.pts) (h : u.maxX < v.minX) : Compatible a b := by
  have hc : (reference.context : Context K).Exact := reference.context_exact
  have one : ∀ (c : Contour K) (w : Box K), IsBoxOf w c.pts → ∀ q : Point K,
      q.x < w.minX ∨ w.maxX < q.x → Locates c q .exterior := by
    intro c w hw q hq
    rw [← C10_point_in_region_unique hc]
    exact C11_exterior_outside_box hc c hw (hq.elim Or.inl (fun h => Or.inr (Or.inl h)))
  intro q
  constructor
  · intro hi
    apply one b v hb
    left
    by_contra hn
    exact absurd (Locates.unique hi (one a u ha q (Or.inr (lt_of_lt_of_le h (not_lt.mp hn)))))
      (by simp)
  · intro hi
    apply one a u ha
    right
    by_contra hn
    exact absurd (Locates.unique hi (one b v hb q (Or.inl (lt_of_le_of_lt (not_lt.mp hn) h))))
      (by simp)

/-- Two separated triangles are a multiregion that meets the hypothesis of C14. -/
example : let m : Multiregion ℚ := [⟨[⟨0, 0⟩, ⟨2, 0⟩, ⟨0, 2⟩]⟩, ⟨[⟨3, 0⟩, ⟨5, 0⟩, ⟨5, 2⟩]⟩]
    m.Pairwise Compatible ∧
    planar.pointInMultiregion ⟨4, 1/2⟩ m (reference.context : Context ℚ) = .interior := by
  refine ⟨?_, by decide +kernel⟩
  simp only [List.pairwise_cons, List.mem_singleton, forall_eq, List.not_mem_nil, IsEmpty.forall_iff,
    implies_true, List.Pairwise.nil, and_true]
  exact compatible_of_boxes (reference.context_exact.contourBox _ (by simp))
    (reference.context_exact.contourBox _ (by simp)) (by decide +kernel)

/-- C15, any polygon: the interior. -/
theorem C15_point_in_polygon_interior {context : Context K} (hc : context.Exact) (p : Point K)
    (g : Polygon K) :
    planar.pointInPolygon p g context = .interior ↔
      Locates g.border p .interior ∧ ∀ h ∈ g.holes, Locates h p .exterior := by
  have e : ∀ r l, region.locatePoint r p context = l ↔ Locates r p l :=
    fun r l => C10_point_in_region_unique hc p r l
  unfold planar.pointInPolygon polygon.locatePoint
  simp only [← e]
  by_cases hb : region.locatePoint g.border p context = .interior
  · simp only [hb, if_true, true_and]
    generalize g.holes = l
    induction l with
    | nil => simp [polygon.locateInHoles]
    | cons h l ih =>
      simp only [polygon.locateInHoles, List.mem_cons, forall_eq_or_imp]
      cases hl : region.locatePoint h p context <;> simp [ih]
  · simp [hb]

/-- Holes that are compatible with each other and lie in the closed region bounded by the border. -/
structure ValidHoles (g : Polygon K) : Prop where
  compatible : g.holes.Pairwise Compatible
  inside : ∀ h ∈ g.holes, ∀ p ∈ Contour.pts h, ¬ Locates g.border p .exterior

/-- C15, valid polygons. -/
theorem C15_point_in_polygon {context : Context K} (hc : context.Exact) (p : Point K)
    (g : Polygon K) (hg : ValidHoles g) :
    (planar.pointInPolygon p g context = .boundary ↔
      p ∈ Contour.pts g.border ∨ ∃ h ∈ g.holes, p ∈ Contour.pts h) ∧
    (planar.pointInPolygon p g context = .interior ↔
      Locates g.border p .interior ∧ ∀ h ∈ g.holes, Locates h p .exterior) ∧
    ∀ holes' : List (Contour K), g.holes.Perm holes' →
      planar.pointInPolygon p ⟨g.border, holes'⟩ context = planar.pointInPolygon p g context := by
  have e : ∀ r l, region.locatePoint r p context = l ↔ Locates r p l :=
    fun r l => C10_point_in_region_unique hc p r l
  have key : ∀ g : Polygon K, ValidHoles g → (planar.pointInPolygon p g context = .boundary ↔
      p ∈ Contour.pts g.border ∨ ∃ h ∈ g.holes, p ∈ Contour.pts h) := by
    intro g hg
    have hcomp := hg.compatible
    have hins := hg.inside
    unfold planar.pointInPolygon polygon.locatePoint
    cases hb : region.locatePoint g.border p context
    · simp only [reduceCtorEq, if_false, false_iff, not_or, not_exists, not_and]
      refine ⟨fun h => ?_, fun h hh hp => ?_⟩
      · have := (e g.border .boundary).mpr h
        rw [hb] at this; exact absurd this (by simp)
      · exact hins h hh p hp ((e _ _).mp hb)
    · have : p ∈ Contour.pts g.border := (e g.border .boundary).mp hb
      simp [this]
    · have hn : p ∉ Contour.pts g.border := by
        intro h
        have := (e g.border .boundary).mpr h
        rw [hb] at this; exact absurd this (by simp)
      simp only [if_true, hn, false_or]
      clear hins hg
      revert hcomp
      generalize g.holes = l
      intro hcomp
      induction l with
      | nil => simp [polygon.locateInHoles]
      | cons h l ih =>
        rw [List.pairwise_cons] at hcomp
        simp only [polygon.locateInHoles, List.mem_cons, exists_eq_or_imp]
        have hbd : p ∈ Contour.pts h ↔ region.locatePoint h p context = .boundary :=
          (e h .boundary).symm
        rw [hbd]
        cases hl : region.locatePoint h p context
        · simp [ih hcomp.2]
        · simp
        · simp only [if_true, Option.getD_some, reduceCtorEq, false_or, false_iff, not_exists, not_and]
          intro k hk hp
          have := ((hcomp.1 k hk) p).1 ((e _ _).mp hl)
          exact absurd (Locates.unique this (l' := .boundary) hp) (by simp)
  refine ⟨key g hg, C15_point_in_polygon_interior hc p g, fun holes' hperm => ?_⟩
  have hg' : ValidHoles ⟨g.border, holes'⟩ :=
    ⟨(hperm.pairwise_iff (fun {a b} h q => ⟨(h q).2, (h q).1⟩)).mp hg.compatible,
      fun h hh => hg.inside h (hperm.mem_iff.mpr hh)⟩
  have hi : planar.pointInPolygon p ⟨g.border, holes'⟩ context = .interior ↔
      planar.pointInPolygon p g context = .interior := by
    rw [C15_point_in_polygon_interior hc, C15_point_in_polygon_interior hc]
    simp only [hperm.mem_iff]
  have hb : planar.pointInPolygon p ⟨g.border, holes'⟩ context = .boundary ↔
      planar.pointInPolygon p g context = .boundary := by
    rw [key _ hg, key _ hg']
    simp only [hperm.mem_iff]
  cases h : planar.pointInPolygon p g context
  · cases h' : planar.pointInPolygon p ⟨g.border, holes'⟩ context
    · rfl
    · rw [h, h'] at hb; exact absurd (hb.mp rfl) (by simp)
    · rw [h, h'] at hi; exact absurd (hi.mp rfl) (by simp)
  · exact hb.mpr h
  · exact hi.mpr h

/-- C16, any list of polygons. -/
theorem C16_point_in_multipolygon_first {context : Context K} (p : Point K) (m : Multipolygon K) :
    (planar.pointInMultipolygon p m context = .exterior ↔
      ∀ g ∈ m.polygons, planar.pointInPolygon p g context = .exterior) ∧
    ∀ l, l ≠ .exterior → (planar.pointInMultipolygon p m context = l ↔
      ∃ pre g post, m.polygons = pre ++ g :: post ∧
        (∀ q ∈ pre, planar.pointInPolygon p q context = .exterior) ∧
        planar.pointInPolygon p g context = l) :=
  first_location (fun g => planar.pointInPolygon p g context)
    (fun m => multipolygon.locateIn context p m) rfl (fun a l => rfl) m.polygons

/-- C16, polygons with disjoint interiors whose boundaries do not enter other interiors. -/
theorem C16_point_in_multipolygon {context : Context K} (hc : context.Exact) (p : Point K)
    (m : Multipolygon K)
    (hm : m.polygons.Pairwise (fun g g' =>
      (planar.pointInPolygon p g context = .interior → planar.pointInPolygon p g' context = .exterior) ∧
      (planar.pointInPolygon p g' context = .interior →
        planar.pointInPolygon p g context = .exterior))) :
    (planar.pointInMultipolygon p m context = .interior ↔
      ∃ g ∈ m.polygons, Locates g.border p .interior ∧ ∀ h ∈ g.holes, Locates h p .exterior) ∧
    (planar.pointInMultipolygon p m context = .boundary ↔
      ∃ g ∈ m.polygons, planar.pointInPolygon p g context = .boundary) ∧
    ∀ polygons' : List (Polygon K), m.polygons.Perm polygons' →
      planar.pointInMultipolygon p ⟨polygons'⟩ context = planar.pointInMultipolygon p m context := by
  have key := fun (l : List (Polygon K)) => first_location_compatible
    (fun g => planar.pointInPolygon p g context)
    (fun m => multipolygon.locateIn context p m) rfl (fun a l => rfl) l
  have hk := key m.polygons hm
  refine ⟨?_, hk.2, fun polygons' hp => ?_⟩
  · rw [show planar.pointInMultipolygon p m context = .interior ↔ _ from hk.1]
    simp only [C15_point_in_polygon_interior hc]
  · have hk' := key polygons' ((hp.pairwise_iff (fun {a b} h => ⟨h.2, h.1⟩)).mp hm)
    change multipolygon.locateIn context p polygons' = multipolygon.locateIn context p m.polygons
    have hi : multipolygon.locateIn context p polygons' = .interior ↔
        multipolygon.locateIn context p m.polygons = .interior := by
      rw [hk.1, hk'.1]; simp only [hp.mem_iff]
    have hb : multipolygon.locateIn context p polygons' = .boundary ↔
        multipolygon.locateIn context p m.polygons = .boundary := by
      rw [hk.2, hk'.2]; simp only [hp.mem_iff]
    cases h : multipolygon.locateIn context p m.polygons
    · cases h' : multipolygon.locateIn context p polygons'
      · rfl
      · rw [h, h'] at hb; exact absurd (hb.mp rfl) (by simp)
      · rw [h, h'] at hi; exact absurd (hi.mp rfl) (by simp)
    · exact hb.mpr h
    · exact hi.mpr h

/-- A polygon with a hole; the hypotheses of C16 hold for two of them at a given point. -/
example :
    let square : Contour ℚ := ⟨[⟨0, 0⟩, ⟨4, 0⟩, ⟨4, 4⟩, ⟨0, 4⟩]⟩
    let hole : Contour ℚ := ⟨[⟨1, 1⟩, ⟨1, 3⟩, ⟨3, 3⟩, ⟨3, 1⟩]⟩
    let other : Contour ℚ := ⟨[⟨4, 0⟩, ⟨8, 0⟩, ⟨8, 4⟩, ⟨4, 4⟩]⟩
    let m : Multipolygon ℚ := ⟨[⟨square, [hole]⟩, ⟨other, []⟩]⟩
    (m.polygons.Pairwise (fun g g' =>
      (planar.pointInPolygon ⟨5, 1⟩ g (reference.context : Context ℚ) = .interior →
        planar.pointInPolygon ⟨5, 1⟩ g' (reference.context : Context ℚ) = .exterior) ∧
      (planar.pointInPolygon ⟨5, 1⟩ g' (reference.context : Context ℚ) = .interior →
        planar.pointInPolygon ⟨5, 1⟩ g (reference.context : Context ℚ) = .exterior))) ∧
    planar.pointInMultipolygon ⟨5, 1⟩ m (reference.context : Context ℚ) = .interior ∧
    planar.pointInMultipolygon ⟨2, 2⟩ m (reference.context : Context ℚ) = .exterior ∧
    planar.pointInMultipolygon ⟨1, 2⟩ m (reference.context : Context ℚ) = .boundary := by
  decide +kernel

end Orient.Props
