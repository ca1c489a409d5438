import Verif.Props.Composition
import Verif.Props.SameSetsExamples

/-! C54, C55: geometries of every kind which meet the hypotheses. -/

set_option linter.unusedSectionVars false

namespace Orient.Props

/-- An areal geometry of every kind. -/
def someAreas : List (Area ℚ) := [.region sameQ, .multiregion sameM, .polygon sameG, .multipolygon sameD]

/-- A linear geometry of every kind. -/
def someLines : List (Line ℚ) := [.segment sameS, .multisegment sameX, .contour sameT]

theorem someAreas_valid : ∀ a ∈ someAreas, a.Valid := by
  simp only [someAreas, List.mem_cons, List.not_mem_nil, or_false, forall_eq_or_imp, forall_eq, Area.Valid]
  exact ⟨same_simple.1, ⟨sameM_ok.1, by simp [sameM]⟩, sameG_ok.1, sameD_ok.1, by simp [sameD]⟩

theorem someLines_valid : ∀ a ∈ someLines, a.Valid := by
  simp only [someLines, List.mem_cons, List.not_mem_nil, or_false, forall_eq_or_imp, forall_eq, Line.Valid]
  exact ⟨sameS_ok.1, ⟨sameX_ok.2.2.1, sameX_ok.1⟩, same_simple.2.2.1⟩

theorem someAreas_suit : ∀ a ∈ someAreas, ∀ b ∈ someAreas, a.Suits b := by
  have e : Neat (sameD.polygons.flatMap Polygon.edges) := neat_of_check (by decide +kernel)
  have g : Neat sameG.edges := neat_of_check (by decide +kernel)
  have c := sameG_ok.2.2.1
  have t : ∀ d ∈ sameG.holes, ¬ RegionRel d sameG.border .touch :=
    fun d hd => not_touch (sameG_ok.1.holes.simple d hd) same_simple.1 (by revert d; decide +kernel)
  simp only [someAreas, List.mem_cons, List.not_mem_nil, or_false, forall_eq_or_imp, forall_eq, Area.Suits]
  exact ⟨⟨trivial, trivial, c, trivial⟩, ⟨trivial, trivial, c, .inr e⟩, ⟨c, c, ⟨c, c, t, t⟩, .inl g⟩,
    trivial, .inr e, .inl g, .inl e⟩

theorem someLines_suit : ∀ a ∈ someLines, ∀ b ∈ someAreas, a.Suits b := by
  have e : Neat (sameD.polygons.flatMap Polygon.edges) := neat_of_check (by decide +kernel)
  have g : Neat sameG.edges := neat_of_check (by decide +kernel)
  have h : Neat (sameG.holes.flatMap Contour.edgeList) := neat_of_check (by decide +kernel)
  have m : Neat (sameM.flatMap Contour.edgeList) := neat_of_check (by decide +kernel)
  have off : (⟨11, 5⟩ : Point ℚ) ∉ sameQ.pts := fun h => by
    have := (contour_boundary ex _ sameQ).mpr h
    revert this
    decide +kernel
  have q : ¬ SharesPiece sameS.pts sameQ.pts := not_sharesPiece_of_check (by decide +kernel)
  simp only [someLines, someAreas, List.mem_cons, List.not_mem_nil, or_false, forall_eq_or_imp, forall_eq, Line.Suits]
  refine ⟨⟨⟨q, .inr (.inr (.inl off))⟩, m, ⟨q, .inr (.inr (.inl off)), h, sameG_off.1⟩, e⟩,
    ⟨?_, ⟨m, ?_⟩, ⟨g, ?_⟩, e, ?_⟩, trivial, m, ⟨sameG_ok.2.2.1, h⟩, e⟩
  · exact not_covered (p := ⟨0, 0⟩) ((contour_boundary ex _ _).mp (by decide +kernel)) (by decide +kernel)
  · simp only [sameM, List.mem_cons, List.not_mem_nil, or_false, forall_eq_or_imp, forall_eq]
    exact ⟨not_covered (p := ⟨4, 4⟩) ((contour_boundary ex _ _).mp (by decide +kernel)) (by decide +kernel),
      not_covered (p := ⟨14, 0⟩) ((contour_boundary ex _ _).mp (by decide +kernel)) (by decide +kernel)⟩
  · exact not_covered (p := ⟨0, 0⟩) (.inl ((contour_boundary ex _ _).mp (by decide +kernel))) (by decide +kernel)
  · simp only [sameD, List.mem_cons, List.not_mem_nil, or_false, forall_eq_or_imp, forall_eq]
    exact ⟨not_covered (p := ⟨0, 0⟩) (.inl ((contour_boundary ex _ _).mp (by decide +kernel))) (by decide +kernel),
      not_covered (p := ⟨14, 0⟩) (.inl ((contour_boundary ex _ _).mp (by decide +kernel))) (by decide +kernel)⟩

/-- C54 applies to areal geometries of every kind in every order. -/
theorem C54_example_areas : ∀ a ∈ someAreas, ∀ b ∈ someAreas, ∀ r,
    a.relate reference.context b = .ok r ↔
      ArealLocations (a.locate reference.context) (b.locate reference.context) r :=
  fun a ha b hb => C54_areas ex (someAreas_valid a ha) (someAreas_valid b hb) (someAreas_suit a ha b hb)

/-- C54 applies to linear and areal geometries of every kind. -/
theorem C54_example_lines : ∀ a ∈ someLines, ∀ b ∈ someAreas, ∀ r,
    a.relate reference.context b = .ok r ↔
      LinearLocations (a.locate reference.context) (b.locate reference.context) r :=
  fun a ha b hb => C54_lines ex (someLines_valid a ha) (someAreas_valid b hb) (someLines_suit a ha b hb)

/-- C55 applies to three areal geometries of any kinds. -/
theorem C55_example_areas : ∀ a ∈ someAreas, ∀ b ∈ someAreas, ∀ c ∈ someAreas, ∀ {r r'},
    a.relate reference.context b = .ok r → b.relate reference.context c = .ok r' →
      ∃ r'' ∈ r.compose r', a.relate reference.context c = .ok r'' :=
  fun a ha b hb c hc _ _ => C55_areas ex (someAreas_valid a ha) (someAreas_valid b hb) (someAreas_valid c hc)
    (someAreas_suit a ha b hb) (someAreas_suit b hb c hc) (someAreas_suit a ha c hc)

/-- C55 applies to linear geometries and areal geometries of any kinds. -/
theorem C55_example_line : ∀ a ∈ someLines, ∀ b ∈ someAreas, ∀ c ∈ someAreas, ∀ {r r'},
    a.relate reference.context b = .ok r → b.relate reference.context c = .ok r' →
      ∃ r'' ∈ r.composeLinear r', a.relate reference.context c = .ok r'' :=
  fun a ha b hb c hc _ _ => C55_line ex (someLines_valid a ha) (someAreas_valid b hb) (someAreas_valid c hc)
    (someLines_suit a ha b hb) (someAreas_suit b hb c hc) (someLines_suit a ha c hc)

theorem C55_example_lines : ∀ a ∈ someLines, ∀ b ∈ someLines, ∀ c ∈ someAreas, ∀ {r r'},
    a.relateLine reference.context b = .ok r → b.relate reference.context c = .ok r' →
      ∃ r'' ∈ r.composeLines r', a.relate reference.context c = .ok r'' :=
  fun a ha b hb c hc _ _ => C55_lines ex (someLines_valid a ha) (someLines_valid b hb) (someAreas_valid c hc)
    (someLines_suit b hb c hc) (someLines_suit a ha c hc)

/-- A region within a region whose region is within a region of a multiregion is within the multiregion: the
table leaves one answer. -/
theorem C55_example_within (context : Context ℚ) (hc : context.Exact) :
    let a : Contour ℚ := ⟨[⟨3, 3⟩, ⟨4, 3⟩, ⟨4, 4⟩]⟩
    let m : Multiregion ℚ := [⟨[⟨-1, -1⟩, ⟨20, -1⟩, ⟨20, 20⟩, ⟨-1, 20⟩]⟩, ⟨[⟨30, 0⟩, ⟨31, 0⟩, ⟨30, 1⟩]⟩]
    planar.regionInRegion a sameQ context = .ok .within → planar.regionInMultiregion sameQ m context = .ok .within →
      planar.regionInMultiregion a m context = .ok .within := by
  intro a m h h'
  have va : a.Simple := Contour.simple_of_check (by decide +kernel)
  have vm : Multiregion.Valid m := Multiregion.valid_of_check (by decide +kernel)
  obtain ⟨r, hr, k⟩ := C55_areas (a := .region a) (b := .region sameQ) (c := .multiregion m) hc va same_simple.1
    ⟨vm, by simp [m]⟩ trivial trivial trivial h h'
  simp only [Relation.compose, List.mem_singleton] at hr
  rw [← hr]
  exact k

end Orient.Props
