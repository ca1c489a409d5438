import Verif.Model.Planar
import Verif.Lemmas.Contour
import Verif.Lemmas.Reference
import Mathlib.Algebra.Field.Rat
import Mathlib.Algebra.Order.Ring.Rat

/-! C01, C03, C07: locating a point in linear geometries. -/

set_option linter.unusedSectionVars false

namespace Orient.Props

variable {K : Type} [Field K] [LinearOrder K] [IsStrictOrderedRing K]

/-- C01. -/
theorem C01_point_in_segment {context : Context K} (hc : context.Exact) (p : Point K)
    (s : Segment K) :
    (planar.pointInSegment p s context = .boundary ↔ p ∈ s.pts) ∧
    (planar.pointInSegment p s context = .exterior ↔ p ∉ s.pts) ∧
    planar.pointInSegment p s context ≠ .interior ∧
    planar.pointInSegment p s.reverse context = planar.pointInSegment p s context := by
  have h := hc.contains s p
  have h' := hc.contains s.reverse p
  rw [Segment.pts_reverse, ← h] at h'
  unfold planar.pointInSegment segment.locatePoint
  by_cases hp : context.segmentContainsPoint s p = true
  · have hm := h.mp hp
    simp [hp, hm, h'.mpr hp]
  · have hm : p ∉ s.pts := fun hm => hp (h.mpr hm)
    have hr : ¬ context.segmentContainsPoint s.reverse p = true := fun hm => hp (h'.mp hm)
    simp [hp, hm, hr]

/-- The contract holds for the reference context, and the answers differ with the point. -/
example : (reference.context : Context ℚ).Exact ∧
    (⟨1, 1⟩ : Point ℚ) ∈ (⟨⟨0, 0⟩, ⟨2, 2⟩⟩ : Segment ℚ).pts ∧
    planar.pointInSegment ⟨1, 1⟩ ⟨⟨0, 0⟩, ⟨2, 2⟩⟩ (reference.context : Context ℚ) = .boundary ∧
    planar.pointInSegment ⟨3, 3⟩ ⟨⟨0, 0⟩, ⟨2, 2⟩⟩ (reference.context : Context ℚ) = .exterior := by
  refine ⟨reference.context_exact, ?_, by decide +kernel, by decide +kernel⟩
  exact (reference.context_exact.contains _ _).mp (by decide +kernel)

/-- Locating a point in a list of segments, one by one. -/
theorem all_exterior_iff {context : Context K} (hc : context.Exact) (p : Point K)
    (l : List (Segment K)) :
    l.all (fun s => segment.locatePoint s p context = Location.exterior) = true ↔ p ∉ segsPts l := by
  rw [List.all_eq_true]
  simp only [decide_eq_true_eq]
  constructor
  · rintro h ⟨s, hs, hp⟩
    exact ((C01_point_in_segment hc p s).2.1.mp (h s hs)) hp
  · intro h s hs
    exact (C01_point_in_segment hc p s).2.1.mpr (fun hp => h ⟨s, hs, hp⟩)

/-- C03, the answers. -/
theorem C03_point_in_multisegment {context : Context K} (hc : context.Exact) (p : Point K)
    (m : Multisegment K) :
    (planar.pointInMultisegment p m context = .boundary ↔ ∃ s ∈ m.segments, p ∈ s.pts) ∧
    (planar.pointInMultisegment p m context = .exterior ↔ ∀ s ∈ m.segments, p ∉ s.pts) := by
  have h := all_exterior_iff hc p m.segments
  have e : (∀ s ∈ m.segments, p ∉ s.pts) ↔ p ∉ segsPts m.segments := by
    constructor
    · rintro h ⟨s, hs, hp⟩; exact h s hs hp
    · intro h s hs hp; exact h ⟨s, hs, hp⟩
  rw [e]
  change (_ ↔ p ∈ segsPts m.segments) ∧ _
  unfold planar.pointInMultisegment multisegment.locatePoint
  split_ifs with h1
  · simp [h.mp h1]
  · have : p ∈ segsPts m.segments := by by_contra hn; exact h1 (h.mpr hn)
    simp [this]

/-- C03, the representation: two lists of segments which contain the same segments up to direction
(in any order, any number of times) give the same answer. -/
theorem C03_point_in_multisegment_representation {context : Context K} (hc : context.Exact)
    (p : Point K) (m m' : Multisegment K)
    (h : ∀ s ∈ m.segments, s ∈ m'.segments ∨ s.reverse ∈ m'.segments)
    (h' : ∀ s ∈ m'.segments, s ∈ m.segments ∨ s.reverse ∈ m.segments) :
    planar.pointInMultisegment p m context = planar.pointInMultisegment p m' context := by
  have sub : ∀ l l' : List (Segment K), (∀ s ∈ l, s ∈ l' ∨ s.reverse ∈ l') →
      (∃ s ∈ l, p ∈ s.pts) → ∃ s ∈ l', p ∈ s.pts := by
    rintro l l' hl ⟨s, hs, hp⟩
    rcases hl s hs with h | h
    · exact ⟨s, h, hp⟩
    · exact ⟨_, h, by rwa [Segment.pts_reverse]⟩
  obtain ⟨b, e⟩ := C03_point_in_multisegment hc p m
  obtain ⟨b', e'⟩ := C03_point_in_multisegment hc p m'
  by_cases hp : ∃ s ∈ m.segments, p ∈ s.pts
  · rw [b.mpr hp, b'.mpr (sub _ _ h hp)]
  · have hp' : ¬ ∃ s ∈ m'.segments, p ∈ s.pts := fun hp' => hp (sub _ _ h' hp')
    push Not at hp hp'
    rw [e.mpr hp, e'.mpr hp']

/-- The hypotheses hold for reordered, reversed and repeated segments. -/
example : planar.pointInMultisegment ⟨1, 0⟩
      (⟨[⟨⟨0, 0⟩, ⟨2, 0⟩⟩, ⟨⟨2, 0⟩, ⟨2, 2⟩⟩]⟩ : Multisegment ℚ) (reference.context : Context ℚ)
    = planar.pointInMultisegment ⟨1, 0⟩
      (⟨[⟨⟨2, 2⟩, ⟨2, 0⟩⟩, ⟨⟨0, 0⟩, ⟨2, 0⟩⟩, ⟨⟨2, 0⟩, ⟨0, 0⟩⟩]⟩ : Multisegment ℚ)
      (reference.context : Context ℚ) := by
  apply C03_point_in_multisegment_representation reference.context_exact <;> decide +kernel

/-- C07, the answers: the edges join vertex `i` with vertex `i + 1`, cyclically. -/
theorem C07_point_in_contour {context : Context K} (hc : context.Exact) (p : Point K)
    (c : Contour K) :
    (planar.pointInContour p c context = .boundary ↔
      ∃ i, ∃ h : i < c.vertices.length,
        p ∈ (⟨c.vertices[i], c.vertices[(i + 1) % c.vertices.length]'(Nat.mod_lt _ (by omega))⟩ :
          Segment K).pts) ∧
    (planar.pointInContour p c context = .exterior ↔
      planar.pointInContour p c context ≠ .boundary) := by
  have h := all_exterior_iff hc p (context.contourSegments c)
  rw [hc.contourSegments] at h
  have hb : planar.pointInContour p c context = .boundary ↔ p ∈ segsPts c.edgeList := by
    unfold planar.pointInContour contour.locatePoint
    rw [hc.contourSegments]
    split_ifs with h1
    · simp [h.mp h1]
    · have : p ∈ segsPts c.edgeList := by by_contra hn; exact h1 (h.mpr hn)
      simp [this]
  constructor
  · rw [hb]
    constructor
    · rintro ⟨s, hs, hp⟩
      obtain ⟨i, hi, rfl⟩ := List.mem_iff_getElem.mp hs
      rw [Contour.edgeList_getElem] at hp
      have hi' : i < c.vertices.length := by rwa [Contour.length_edgeList] at hi
      refine ⟨(i + (c.vertices.length - 1)) % c.vertices.length, Nat.mod_lt _ (by omega), ?_⟩
      have e : ((i + (c.vertices.length - 1)) % c.vertices.length + 1) % c.vertices.length = i := by
        rw [Nat.mod_add_mod]
        have : i + (c.vertices.length - 1) + 1 = i + c.vertices.length := by omega
        rw [this, Nat.add_mod_right, Nat.mod_eq_of_lt hi']
      simpa only [e] using hp
    · rintro ⟨i, hi, hp⟩
      have hl : (i + 1) % c.vertices.length < c.edgeList.length := by
        rw [Contour.length_edgeList]; exact Nat.mod_lt _ (by omega)
      refine ⟨c.edgeList[(i + 1) % c.vertices.length], List.getElem_mem hl, ?_⟩
      rw [Contour.edgeList_getElem]
      have e : ((i + 1) % c.vertices.length + (c.vertices.length - 1)) % c.vertices.length = i := by
        rw [Nat.mod_add_mod]
        have : i + 1 + (c.vertices.length - 1) = i + c.vertices.length := by omega
        rw [this, Nat.add_mod_right, Nat.mod_eq_of_lt hi]
      simpa only [e] using hp
  · unfold planar.pointInContour contour.locatePoint
    split_ifs <;> simp

/-- C07, the representation. -/
theorem C07_point_in_contour_representation {context : Context K} (hc : context.Exact)
    (p : Point K) (vs : List (Point K)) (k : Nat) :
    planar.pointInContour p ⟨vs.rotate k⟩ context = planar.pointInContour p ⟨vs⟩ context ∧
    planar.pointInContour p ⟨vs.reverse⟩ context = planar.pointInContour p ⟨vs⟩ context := by
  have key : ∀ c c' : Contour K, c.pts = c'.pts →
      planar.pointInContour p c context = planar.pointInContour p c' context := by
    intro c c' e
    have h := all_exterior_iff hc p (context.contourSegments c)
    have h' := all_exterior_iff hc p (context.contourSegments c')
    rw [hc.contourSegments] at h h'
    unfold planar.pointInContour contour.locatePoint
    rw [hc.contourSegments, hc.contourSegments]
    have : p ∉ segsPts c.edgeList ↔ p ∉ segsPts c'.edgeList := by
      change p ∉ c.pts ↔ p ∉ c'.pts; rw [e]
    rw [if_congr (h.trans (this.trans h'.symm)) rfl rfl]
  exact ⟨key _ _ (Contour.pts_rotate vs k), key _ _ (Contour.pts_reverse vs)⟩

/-- Both answers occur. -/
example : planar.pointInContour ⟨1, 0⟩ ⟨[⟨0, 0⟩, ⟨2, 0⟩, ⟨0, 2⟩]⟩ (reference.context : Context ℚ)
      = .boundary ∧
    planar.pointInContour ⟨0, 1⟩ ⟨[⟨0, 0⟩, ⟨2, 0⟩, ⟨0, 2⟩]⟩ (reference.context : Context ℚ)
      = .boundary ∧
    planar.pointInContour ⟨2, 2⟩ ⟨[⟨0, 0⟩, ⟨2, 0⟩, ⟨0, 2⟩]⟩ (reference.context : Context ℚ)
      = .exterior := by decide +kernel

end Orient.Props
