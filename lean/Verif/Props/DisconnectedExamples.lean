import Verif.Props.Disconnected

/-! The exceptions of C72 are real. -/

namespace Orient
namespace Props

variable {K : Type} [Field K] [LinearOrder K] [IsStrictOrderedRing K]

theorem single_parts {g : Polygon K} (h : g.Valid) : (⟨[g]⟩ : Multipolygon K).Valid ∧
    (⟨[g]⟩ : Multipolygon K).interior = g.interior ∧ (⟨[g]⟩ : Multipolygon K).pts = g.pts ∧
    (⟨[g]⟩ : Multipolygon K).exterior = g.exterior := by
  refine ⟨⟨by simpa using h, by simp⟩, ?_, ?_, ?_⟩ <;> ext x <;>
    simp [Multipolygon.interior, Multipolygon.pts, Multipolygon.exterior]

/-- The answer for a multipolygon of one polygon is right unless it is `OVERLAP`. -/
theorem C72_wrapped {context : Context K} (hc : context.Exact) {t g : Polygon K} (ht : t.Valid) (hg : g.Valid)
    {r : Relation} (h : planar.polygonInMultipolygon t ⟨[g]⟩ context = .ok r) (hr : r ≠ .overlap) :
    PolygonRel t g r := by
  obtain ⟨v, e1, e2, e3⟩ := single_parts hg
  obtain ⟨r', h', k | ⟨rfl, -⟩⟩ := C41_polygon_in_multipolygon hc ht v
  · rw [h] at h'
    cases h'
    rwa [e1, e2, e3] at k
  · rw [h] at h'
    cases h'
    exact absurd rfl hr

theorem C72_wrapped_multiregion {context : Context K} (hc : context.Exact) {m : Multiregion K} {g : Polygon K}
    (hm : Multiregion.Valid m) (hne : m ≠ []) (hg : g.Valid)
    {r : Relation} (h : planar.multiregionInMultipolygon m ⟨[g]⟩ context = .ok r) (hr : r ≠ .overlap) :
    MultiregionRel m g r := by
  obtain ⟨v, e1, e2, e3⟩ := single_parts hg
  obtain ⟨r', h', k | ⟨rfl, -⟩⟩ := C41_multiregion_in_multipolygon hc hm v hne (by simp)
  · rw [h] at h'
    cases h'
    rwa [e1, e2, e3] at k
  · rw [h] at h'
    cases h'
    exact absurd rfl hr

/-- The parts of the inside of a square with a hole which touches two of its sides. -/
def pinchedParts : Multiregion ℚ :=
  [⟨[⟨1, 1⟩, ⟨5, 1⟩, ⟨5, 3⟩, ⟨3, 2⟩, ⟨1, 3⟩]⟩, ⟨[⟨1, 3⟩, ⟨3, 4⟩, ⟨5, 3⟩, ⟨5, 5⟩, ⟨1, 5⟩]⟩]

/-- A square with a hole which touches two of its sides. -/
def pinched : Polygon ℚ :=
  ⟨⟨[⟨1, 1⟩, ⟨5, 1⟩, ⟨5, 5⟩, ⟨1, 5⟩]⟩, [⟨[⟨1, 3⟩, ⟨3, 2⟩, ⟨5, 3⟩, ⟨3, 4⟩]⟩]⟩

/-- A square which has the parts of the other one as holes. -/
def pinching : Polygon ℚ := ⟨⟨[⟨0, 0⟩, ⟨6, 0⟩, ⟨6, 6⟩, ⟨0, 6⟩]⟩, pinchedParts⟩

theorem pinched_valid : pinched.Valid ∧ pinching.Valid ∧ Multiregion.Valid pinchedParts :=
  ⟨Polygon.valid_of_check (by decide +kernel), Polygon.valid_of_check (by decide +kernel),
    Multiregion.valid_of_check (by decide +kernel)⟩

/-- C72: `OVERLAP` is answered for `TOUCH`. -/
theorem C72_counterexample_touch : pinched.Valid ∧ pinching.Valid ∧
    planar.polygonInPolygon pinched pinching (reference.context : Context ℚ) = .ok .overlap ∧
    PolygonRel pinched pinching .touch :=
  ⟨pinched_valid.1, pinched_valid.2.1, by decide +kernel,
    C72_wrapped reference.context_exact pinched_valid.1 pinched_valid.2.1 (by decide +kernel) (by decide)⟩

/-- The interiors of both polygons are not connected. -/
theorem pinched_not_connected : ¬ pinched.Connected ∧ ¬ pinching.Connected := by
  obtain ⟨v1, v2, h, k⟩ := C72_counterexample_touch
  obtain ⟨r, hr, rfl | ⟨rfl, -⟩ | ⟨rfl, -⟩ | ⟨-, -, h⟩ | ⟨rfl, -⟩ | ⟨rfl, -⟩⟩ :=
    C72_polygon_in_polygon reference.context_exact v1 v2 k
  · rw [h] at hr; cases hr
  · rw [h] at hr; cases hr
  · rw [h] at hr; cases hr
  · exact h
  · rw [h] at hr; cases hr
  · rw [h] at hr; cases hr

/-- C72: `ENCLOSED` is answered for `COMPONENT` and `ENCLOSES` for `COMPOSITE`. -/
theorem C72_counterexample_component (c : Contour ℚ) (hc : c ∈ pinchedParts) : (⟨c, []⟩ : Polygon ℚ).Valid ∧
    PolygonRel ⟨c, []⟩ pinched .component ∧
    planar.polygonInPolygon ⟨c, []⟩ pinched (reference.context : Context ℚ) = .ok .enclosed ∧
    PolygonRel pinched ⟨c, []⟩ .composite ∧
    planar.polygonInPolygon pinched ⟨c, []⟩ (reference.context : Context ℚ) = .ok .encloses := by
  have v : (⟨c, []⟩ : Polygon ℚ).Valid := ⟨pinched_valid.2.2.simple c hc, ⟨by simp, by simp⟩, by simp, by simp⟩
  have h : PolygonRel ⟨c, []⟩ pinched .component :=
    C72_wrapped reference.context_exact v pinched_valid.1 (by clear v; revert c; decide +kernel) (by decide)
  exact ⟨v, h, (C72_never reference.context_exact v pinched_valid.1).1 h, CompoundRel.swap h,
    (C72_never reference.context_exact pinched_valid.1 v).2 (CompoundRel.swap h)⟩

/-- C72: `ENCLOSED` is answered about a multiregion which is `EQUAL` to a polygon, and about one which is `COMPONENT`
of it. -/
theorem C72_counterexample_equal :
    (MultiregionRel pinchedParts pinched .equal ∧
      planar.multiregionInPolygon pinchedParts pinched (reference.context : Context ℚ) = .ok .enclosed) ∧
    (MultiregionRel (pinchedParts.take 1) pinched .component ∧
      planar.multiregionInPolygon (pinchedParts.take 1) pinched (reference.context : Context ℚ) = .ok .enclosed) :=
  ⟨⟨C72_wrapped_multiregion reference.context_exact pinched_valid.2.2 (by decide) pinched_valid.1 (by decide +kernel)
      (by decide), by decide +kernel⟩,
    C72_wrapped_multiregion reference.context_exact (pinched_valid.2.2.sublist (List.take_sublist _ _)) (by decide)
      pinched_valid.1 (by decide +kernel) (by decide), by decide +kernel⟩

/-- C72: `OVERLAP` is answered for `COMPOSITE` and for `ENCLOSES`. -/
theorem C72_counterexample_overlap :
    let m : Multiregion ℚ := ⟨[⟨7, 7⟩, ⟨8, 7⟩, ⟨7, 8⟩]⟩ :: pinchedParts
    let n : Multiregion ℚ := [⟨[⟨1, 0⟩, ⟨5, 0⟩, ⟨5, 3⟩, ⟨3, 2⟩, ⟨1, 3⟩]⟩, ⟨[⟨1, 3⟩, ⟨3, 4⟩, ⟨5, 3⟩, ⟨5, 5⟩, ⟨1, 5⟩]⟩]
    (Multiregion.Valid m ∧ MultiregionRel m pinched .composite ∧
      planar.multiregionInPolygon m pinched (reference.context : Context ℚ) = .ok .overlap) ∧
    (Multiregion.Valid n ∧ MultiregionRel n pinched .encloses ∧
      planar.multiregionInPolygon n pinched (reference.context : Context ℚ) = .ok .overlap) := by
  intro m n
  have hm : Multiregion.Valid m := Multiregion.valid_of_check (by decide +kernel)
  have hn : Multiregion.Valid n := Multiregion.valid_of_check (by decide +kernel)
  exact ⟨⟨hm, C72_wrapped_multiregion reference.context_exact hm (by decide) pinched_valid.1 (by decide +kernel)
      (by decide), by decide +kernel⟩,
    hn, C72_wrapped_multiregion reference.context_exact hn (by decide) pinched_valid.1 (by decide +kernel)
      (by decide), by decide +kernel⟩

end Props
end Orient
