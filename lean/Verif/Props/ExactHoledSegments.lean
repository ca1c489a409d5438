import Verif.Spec.HoledSegments
import Verif.Props.ExactSegmentsAll
import Verif.Props.ExactPolygons

/-! C87: exactly what `segment_in_polygon` answers, for all segments and all valid polygons. -/

set_option linter.unusedSectionVars false

namespace Orient.Props

variable {K : Type} [Field K] [LinearOrder K] [IsStrictOrderedRing K]

/-- What becomes of the answer about the border, if the segment is found inside of it. -/
def withHoles (r : Relation) : Relation → Relation
  | .disjoint => r
  | .touch => .enclosed
  | .enclosed => .touch
  | .within => .disjoint
  | relation => relation

/-- The two tables together. -/
theorem holedSegment_table {X Y O H : Prop} {S I B E I' B' E' : Set (Point K)} (ns : S.Nonempty)
    {r r' q : Relation} (h : ∀ q, SegmentAnswer X Y O S I B E q ↔ q = r)
    (dis : I ∩ B = ∅) (h1 : I' ∩ B' = ∅) (h2 : I' ∩ E' = ∅) (h3 : B' ∩ E' = ∅)
    (all : ∀ p, p ∈ I' ∨ p ∈ B' ∨ p ∈ E')
    (h' : CrossAnswer H S I' B' E' r')
    (e : ¬ (r = .within ∨ r = .enclosed) → q = r)
    (e' : (r = .within ∨ r = .enclosed) → q = withHoles r r') (x : Relation) :
    HoledSegmentAnswer X Y O H S I B E I' B' E' x ↔ x = q := by
  have hr := (h r).mpr rfl
  obtain ⟨a1, a2, a3, a4, a5⟩ := hr
  -- something applies
  have ex : X ∨ Y ∨ S ⊆ I ∨ S ⊆ E ∨ (S ∩ B).Nonempty := by
    by_contra hn
    push Not at hn
    obtain ⟨n1, n2, n3, n4, n5⟩ := hn
    have := (h (if r = .cross then .touch else .cross)).mp
      ⟨fun k => absurd k n1, fun k => absurd k n2, fun k => absurd k n3, fun k => absurd k n4,
        fun _ _ k => absurd n5 k.ne_empty⟩
    split_ifs at this with k
    · rw [k] at this; cases this
    · exact k this.symm
  have is : S ⊆ I → ¬ (S ∩ B).Nonempty := fun k ⟨p, p1, p2⟩ =>
    Set.eq_empty_iff_forall_notMem.mp dis p ⟨k p1, p2⟩
  have isI : (S ⊆ I ↔ r = .within) := by
    refine ⟨a3, fun k => ?_⟩
    rcases ex with k' | k' | k' | k' | k'
    · rw [a1 k'] at k; cases k
    · rw [a2 k'] at k; cases k
    · exact k'
    · rw [a4 k'] at k; cases k
    · by_cases hX : X
      · rw [a1 hX] at k; cases k
      by_cases hY : Y
      · rw [a2 hY] at k; cases k
      by_cases hO : O
      · rw [(a5 hX hY k').1 hO] at k; cases k
      · rw [(a5 hX hY k').2 hO] at k; cases k
  have part : (¬ X ∧ ¬ Y ∧ (S ⊆ I ∨ (S ∩ B).Nonempty ∧ ¬ O)) ↔ (r = .within ∨ r = .enclosed) := by
    constructor
    · rintro ⟨hX, hY, k | ⟨k, k'⟩⟩
      · exact .inl (a3 k)
      · exact .inr ((a5 hX hY k).2 k')
    · intro k
      have hX : ¬ X := fun hX => by rw [a1 hX] at k; simp at k
      have hY : ¬ Y := fun hY => by rw [a2 hY] at k; simp at k
      refine ⟨hX, hY, ?_⟩
      rcases ex with k' | k' | k' | k' | k'
      · exact absurd k' hX
      · exact absurd k' hY
      · exact .inl k'
      · rw [a4 k'] at k; simp at k
      · exact .inr ⟨k', fun hO => by rw [(a5 hX hY k').1 hO] at k; simp at k⟩
  have uniq := fun (x : Relation) (hH : ¬ H) (k : LinearCompoundRel S I' B' E' x) =>
    LinearCompoundRel.unique ns h1 h2 h3 (h'.2 hH) k
  have table : HoledSegmentAnswer X Y O H S I B E I' B' E' q := by
    have np : ∀ {t : Relation}, r = t → t ≠ .within → t ≠ .enclosed → q = t := fun k k1 k2 => by
      rw [← k] at k1 k2 ⊢
      exact e fun k3 => k3.elim k1 k2
    refine ⟨fun k => np (a1 k) (by decide) (by decide), fun k => np (a2 k) (by decide) (by decide),
      fun k => np (a4 k) (by decide) (by decide), fun hX hY k k' => np ((a5 hX hY k).1 k') (by decide) (by decide),
      fun hX hY k => ?_⟩
    have q' := e' (part.mp ⟨hX, hY, k⟩)
    have cr : r' = .cross → q = .cross := fun k => by rw [q', k]; rfl
    refine ⟨?_, fun hH => ⟨fun k => ?_, fun k1 k2 k3 => ?_, fun k => ?_, fun k1 k2 k3 => ?_, fun k => ⟨fun k' => ?_, fun k' => ?_⟩⟩⟩
    · intro k
      by_cases hH : H
      · exact cr (h'.1 hH)
      · exact cr (uniq .cross hH (k.resolve_left hH))
    · rw [q', uniq .within hH k]
      rfl
    · rw [q', uniq .enclosed hH ⟨k1, k2, k3⟩]
      rfl
    · rw [q', uniq .component hH k]
      rfl
    · rw [q', uniq .touch hH ⟨k1, k2, k3⟩]
      rfl
    · rw [q', uniq .disjoint hH k]
      exact a3 k'
    · rw [q', uniq .disjoint hH k]
      exact (part.mp ⟨hX, hY, by assumption⟩).resolve_left fun k'' => k' (isI.mpr k'')
  refine ⟨fun hx => ?_, fun k => k ▸ table⟩
  obtain ⟨b1, b2, b3, b4, b5⟩ := hx
  obtain ⟨c1, c2, c3, c4, c5⟩ := table
  by_cases hX : X
  · rw [b1 hX, c1 hX]
  by_cases hY : Y
  · rw [b2 hY, c2 hY]
  by_cases hE : S ⊆ E
  · rw [b3 hE, c3 hE]
  by_cases hO : (S ∩ B).Nonempty ∧ O
  · rw [b4 hX hY hO.1 hO.2, c4 hX hY hO.1 hO.2]
  have k : S ⊆ I ∨ (S ∩ B).Nonempty ∧ ¬ O := by
    rcases ex with k | k | k | k | k
    · exact absurd k hX
    · exact absurd k hY
    · exact .inl k
    · exact absurd k hE
    · exact .inr ⟨k, fun k' => hO ⟨k, k'⟩⟩
  obtain ⟨b6, b7⟩ := b5 hX hY k
  obtain ⟨c6, c7⟩ := c5 hX hY k
  by_cases hH : H
  · rw [b6 (.inl hH), c6 (.inl hH)]
  obtain ⟨b7, b8, b9, b10, b11⟩ := b7 hH
  obtain ⟨c7, c8, c9, c10, c11⟩ := c7 hH
  by_cases i : (S ∩ I').Nonempty <;> by_cases o : (S ∩ E').Nonempty
  · rw [b6 (.inr ⟨i, o⟩), c6 (.inr ⟨i, o⟩)]
  · by_cases b : (S ∩ B').Nonempty
    · rw [b8 (Set.not_nonempty_iff_eq_empty.mp o) i b, c8 (Set.not_nonempty_iff_eq_empty.mp o) i b]
    · have k : S ⊆ I' := fun p hp => ((all p).resolve_right (not_or.mpr ⟨fun k => b ⟨p, hp, k⟩, fun k => o ⟨p, hp, k⟩⟩))
      rw [b7 k, c7 k]
  · by_cases b : (S ∩ B').Nonempty
    · rw [b10 (Set.not_nonempty_iff_eq_empty.mp i) o b, c10 (Set.not_nonempty_iff_eq_empty.mp i) o b]
    · have k : S ⊆ E' := fun p hp => ((all p).resolve_left fun k => i ⟨p, hp, k⟩).resolve_left fun k => b ⟨p, hp, k⟩
      by_cases k' : S ⊆ I
      · rw [(b11 k).1 k', (c11 k).1 k']
      · rw [(b11 k).2 k', (c11 k).2 k']
  · have k : S ⊆ B' := fun p hp => ((all p).resolve_left fun k => i ⟨p, hp, k⟩).resolve_right fun k => o ⟨p, hp, k⟩
    rw [b9 k, c9 k]

/-- C87: what `segment_in_polygon` answers about every segment and every valid polygon. -/
theorem C87_segment_in_polygon {context : Context K} (hc : context.Exact) {s : Segment K} (hs : s.Nondegenerate)
    {g : Polygon K} (hg : g.Valid) :
    ∃ r, planar.segmentInPolygon s g context = .ok r ∧ ∀ q,
      HoledSegmentAnswer
        ((∃ e ∈ g.border.edgeList, ∃ p, s.pts ∩ e.pts = {p} ∧ ¬ s.IsEndpoint p ∧ ¬ e.IsEndpoint p) ∨
          ∃ a w b, ⟨a, w⟩ ∈ g.border.edgeList ∧ ⟨w, b⟩ ∈ g.border.edgeList ∧ w ∈ s.pts ∧ ¬ s.IsEndpoint w ∧
            cross s.start s.finish a * cross s.start s.finish b < 0)
        (∃ e ∈ g.border.edgeList, s.pts ⊆ e.pts) (g.border.SeemsOutside s)
        (EdgesCross (g.holes.flatMap Contour.edgeList) [s]) s.pts g.border.interior g.border.pts g.border.exterior
        (Multiregion.interior g.holes) (Multiregion.pts g.holes) (Multiregion.exterior g.holes) q ↔ q = r := by
  obtain ⟨r, hr, h⟩ := C83_segment_in_region hc hs hg.border
  obtain ⟨r', hr', h'⟩ := C73_segment_in_multiregion hc hs hg.holes
  have hr : region.relateSegment g.border s context = .ok r := hr
  have hr' : multiregion.relateSegment g.holes s context = .ok r' := hr'
  have h' := (h' r').mpr rfl
  have ns : s.pts.Nonempty := ⟨_, s.start_mem⟩
  set q := if r = .within ∨ r = .enclosed then withHoles r r' else r with hq
  obtain ⟨b1, b2, b3⟩ := multiregion_apart hg.holes
  refine ⟨q, ?_, holedSegment_table ns h g.border.interior_pts b1 b2 b3 (fun p => ?_) h'
    (fun k => by rw [hq, if_neg k]) (fun k => by rw [hq, if_pos k])⟩
  · unfold planar.segmentInPolygon polygon.relateSegment
    simp only [hr, hr', bind, Except.bind, pure, Except.pure]
    rw [hq]
    by_cases hin : r = .within ∨ r = .enclosed
    · by_cases hne : g.holes = []
      · have e : r' = .disjoint := by
          by_cases hX : EdgesCross (g.holes.flatMap Contour.edgeList) [s]
          · rw [hne] at hX
            obtain ⟨-, -, v, hv, -⟩ := hX
            simp at hv
          · refine LinearCompoundRel.unique ns ?_ ?_ ?_ (h'.2 hX) (r' := .disjoint) ?_ <;>
              simp [hne, Multiregion.interior, Multiregion.pts, Multiregion.exterior, LinearCompoundRel,
                Set.subset_def]
        rw [if_neg fun h => h.1 hne, if_pos hin, e]
        rfl
      · rw [if_pos ⟨hne, hin⟩, if_pos hin]
        cases r' <;> rfl
    · rw [if_neg fun h => hin h.2, if_neg hin]
  · by_cases k1 : p ∈ Multiregion.pts g.holes
    · exact .inr (.inl k1)
    by_cases k2 : p ∈ Multiregion.interior g.holes
    · exact .inl k2
    exact .inr (.inr fun c hc' => (Contour.cover fun k => k1 ⟨c, hc', k⟩).resolve_left fun k => k2 ⟨c, hc', k⟩)
/-- A polygon with a clockwise border and a hole. -/
def exampleTurnedHoled : Polygon ℚ := ⟨exampleTurned, [⟨[⟨2, 2⟩, ⟨4, 2⟩, ⟨3, 3⟩]⟩]⟩

theorem exampleTurnedHoled_valid : exampleTurnedHoled.Valid := Polygon.valid_of_check (by decide +kernel)

/-- A diagonal passes through the hole, but looks as if it went outwards from the border: `TOUCH`. -/
theorem C87_example :
    planar.segmentInPolygon ⟨⟨2, 5⟩, ⟨4, 0⟩⟩ exampleTurnedHoled (reference.context : Context ℚ) = .ok .touch ∧
      exampleTurnedHoled.border.SeemsOutside ⟨⟨2, 5⟩, ⟨4, 0⟩⟩ :=
  ⟨by decide +kernel, C83_example.2⟩

/-- That is wrong: it contains inner points of the polygon. -/
theorem C87_example_wrong : ¬ LinearCompoundRel (⟨⟨2, 5⟩, ⟨4, 0⟩⟩ : Segment ℚ).pts
    exampleTurnedHoled.interior exampleTurnedHoled.pts exampleTurnedHoled.exterior .touch := by
  intro h
  refine Set.eq_empty_iff_forall_notMem.mp h.1 ⟨5 / 2, 15 / 4⟩ ⟨⟨1 / 4, by decide +kernel, by decide +kernel, ?_⟩, ?_⟩
  · decide +kernel
  · exact (C15_point_in_polygon_interior reference.context_exact _ exampleTurnedHoled).mp (by decide +kernel)

/-- Segments in and about the hole, and one from the border inwards. -/
theorem C87_examples :
    planar.segmentInPolygon ⟨⟨3, 9 / 4⟩, ⟨3, 11 / 4⟩⟩ exampleTurnedHoled (reference.context : Context ℚ) = .ok .disjoint ∧
      planar.segmentInPolygon ⟨⟨3, 2⟩, ⟨3, 3⟩⟩ exampleTurnedHoled (reference.context : Context ℚ) = .ok .touch ∧
      planar.segmentInPolygon ⟨⟨3, 2⟩, ⟨3, 1⟩⟩ exampleTurnedHoled (reference.context : Context ℚ) = .ok .enclosed ∧
      planar.segmentInPolygon ⟨⟨3, 4⟩, ⟨3, 1⟩⟩ exampleTurnedHoled (reference.context : Context ℚ) = .ok .cross ∧
      planar.segmentInPolygon ⟨⟨2, 5⟩, ⟨2, 4⟩⟩ exampleTurnedHoled (reference.context : Context ℚ) = .ok .enclosed := by
  refine ⟨by decide +kernel, by decide +kernel, by decide +kernel, by decide +kernel, by decide +kernel⟩

end Orient.Props
