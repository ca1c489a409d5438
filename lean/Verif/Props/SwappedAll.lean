import Verif.Props.ExactPairs
import Verif.Props.ExactAnswers
import Verif.Props.Swapped

/-! C77: exchanged operands and relations with itself for all valid polygons and multipolygons.

The conditions of C50 are not needed: wrong answers are exchanged, too. -/

set_option linter.unusedSectionVars false

namespace Orient.Props

variable {K : Type} [Field K] [LinearOrder K] [IsStrictOrderedRing K]

theorem edgesCross_swap {G T : List (Segment K)} (h : EdgesCross G T) : EdgesCross T G := by
  obtain ⟨u, hu, v, hv, p, hp, h1, h2, h3⟩ := h
  exact ⟨v, hv, u, hu, p, ⟨hp.2, hp.1⟩, h2, h1, h3.symm⟩

/-- Segments do not cross themselves. -/
theorem not_edgesCross_self (G : List (Segment K)) : ¬ EdgesCross G G := by
  rintro ⟨u, hu, v, hv, p, hp, h1, h2, ⟨a, ha, hs, hx⟩ | ⟨a, ha, hs, hx⟩⟩
  · exact ha (hx a (Segment.finish_mem _) ⟨u, hu, hs (Segment.finish_mem _)⟩)
  · exact ha (hx a (Segment.finish_mem _) ⟨v, hv, hs (Segment.finish_mem _)⟩)

theorem entangled_comm {t g : Polygon K} : t.Entangled g ↔ g.Entangled t := by
  unfold Polygon.Entangled
  rw [Set.inter_comm]
  tauto

/-- C77: exchanging two polygons gives the complement, whether the answer is right or not. -/
theorem C77_polygons {context : Context K} (hc : context.Exact) {t g : Polygon K} (ht : t.Valid) (hg : g.Valid) :
    planar.polygonInPolygon g t context = (planar.polygonInPolygon t g context).map Relation.complement := by
  obtain ⟨q, hq, -⟩ := C72_polygon_relation ht hg
  obtain ⟨r, hr, h⟩ := C76_polygon_in_polygon hc ht hg hq
  obtain ⟨r', hr', h'⟩ := C76_polygon_in_polygon hc hg ht (CompoundRel.swap hq)
  rw [hr, hr']
  have e : PolygonAnswer g t q.complement r.complement := by
    have h := (h r).mpr rfl
    cases q <;> simp only [PolygonAnswer, Relation.complement, entangled_comm (t := g)] at h ⊢
    case touch => exact ⟨fun k => by rw [h.1 k], fun k => by rw [h.2 k]⟩
    case enclosed => exact ⟨fun k => by rw [h.1 k], fun k => by rw [h.2 k]⟩
    case encloses => exact ⟨fun k => by rw [h.1 k], fun k => by rw [h.2 k]⟩
    all_goals rw [h]
  exact congrArg _ ((h' _).mp e).symm

/-- C77: exchanging two multipolygons gives the complement, whether the answer is right or not. -/
theorem C77_multipolygons {context : Context K} (hc : context.Exact) {a b : Multipolygon K}
    (ha : a.Valid) (hb : b.Valid) (na : a.polygons ≠ []) (nb : b.polygons ≠ []) :
    planar.multipolygonInMultipolygon b a context
      = (planar.multipolygonInMultipolygon a b context).map Relation.complement := by
  obtain ⟨r, hr, h⟩ := C73_multipolygon_in_multipolygon hc ha hb na nb
  obtain ⟨r', hr', h'⟩ := C73_multipolygon_in_multipolygon hc hb ha nb na
  rw [hr, hr']
  have h := (h r).mpr rfl
  refine congrArg _ ((h' r.complement).mp ⟨fun k => ?_, fun k => ?_⟩).symm
  · rw [h.1 (edgesCross_swap k)]
    rfl
  · exact CompoundRel.swap (h.2 fun k' => k (edgesCross_swap k'))

/-- C77: a valid polygon is equal to itself. -/
theorem C77_polygon_itself {context : Context K} (hc : context.Exact) {g : Polygon K} (hg : g.Valid) :
    planar.polygonInPolygon g g context = .ok .equal :=
  (C76_right_iff hc hg hg (r' := .equal) ⟨rfl, rfl⟩).mpr (by simp)

/-- C77: a valid multipolygon is equal to itself. -/
theorem C77_multipolygon_itself {context : Context K} (hc : context.Exact) {m : Multipolygon K} (hm : m.Valid)
    (hne : m.polygons ≠ []) : planar.multipolygonInMultipolygon m m context = .ok .equal := by
  obtain ⟨r, hr, h⟩ := C73_multipolygon_in_multipolygon hc hm hm hne hne
  rw [hr]
  exact congrArg _ ((h .equal).mp ⟨fun k => absurd k (not_edgesCross_self _), fun _ => ⟨rfl, rfl⟩⟩).symm

/-- C77: the entangled polygons of C72 with disconnected interiors. -/
theorem C77_example : planar.polygonInPolygon pinching pinched (reference.context : Context ℚ) = .ok .overlap ∧
    planar.polygonInPolygon pinched pinched (reference.context : Context ℚ) = .ok .equal := by
  refine ⟨?_, C77_polygon_itself reference.context_exact pinched_valid.1⟩
  rw [C77_polygons reference.context_exact pinched_valid.1 pinched_valid.2.1, C72_counterexample_touch.2.2.1]
  rfl

end Orient.Props
