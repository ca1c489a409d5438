import Verif.Lemmas.Sweep.Complete
import Verif.Props.Multisegments
import Verif.Props.Sweeping

/-! C18: `multisegment_in_multisegment` and `multisegment_in_contour` find everything. -/

set_option linter.unusedSectionVars false

namespace Orient.Props

open eventsQueue State

variable {K : Type} [Field K] [LinearOrder K] [IsStrictOrderedRing K]

/-- C18: for valid operands `multisegment_in_multisegment` always answers, and the answer is the
relation of the sets of points: `EQUAL`, `COMPONENT` and `COMPOSITE` for the inclusions, `OVERLAP`
for a common piece otherwise, `DISJOINT` when there is no common point. -/
theorem C18_multisegment_in_multisegment {context : Context K} (hc : context.Exact)
    {a b : Multisegment K} (ha : a.segments ≠ []) (hb : b.segments ≠ [])
    (va : SegmentsValid a.segments) (vb : SegmentsValid b.segments) :
    ∃ r, planar.multisegmentInMultisegment a b context = .ok r ∧
      SetsRel (segsPts a.segments) (segsPts b.segments) r := by
  unfold planar.multisegmentInMultisegment multisegment.relateMultisegment
  simp only
  split_ifs with h
  · refine ⟨_, rfl, Set.not_nonempty_iff_eq_empty.mp ?_⟩
    rintro ⟨x, h1, h2⟩
    have := box.not_disjointWith (hc.segmentsBox _ hb) (hc.segmentsBox _ ha) h2 h1
    simp_all
  · exact runOpenLinear_exact hc (registered (matches_segments b) (matches_segments a) vb.1 va.1) hb ha
      vb va (hc.segmentsBox _ hb).le_maxX (hc.segmentsBox _ ha).le_maxX

/-- C18, the same for `multisegment_in_contour`; the contour may touch itself. -/
theorem C18_multisegment_in_contour {context : Context K} (hc : context.Exact)
    {a : Multisegment K} {b : Contour K} (ha : a.segments ≠ []) (hb : b.vertices ≠ [])
    (va : SegmentsValid a.segments) (vb : SegmentsValid b.edgeList) :
    ∃ r, planar.multisegmentInContour a b context = .ok r ∧
      SetsRel (segsPts a.segments) b.pts r := by
  unfold planar.multisegmentInContour contour.relateMultisegment
  simp only
  split_ifs with h
  · refine ⟨_, rfl, Set.not_nonempty_iff_eq_empty.mp ?_⟩
    rintro ⟨x, h1, h2⟩
    have := box.not_disjointWith (hc.contourBox _ hb) (hc.segmentsBox _ ha) h2 h1
    simp_all
  · have hne : b.edgeList ≠ [] := by
      have := hb
      rw [← List.length_pos_iff] at this ⊢
      rwa [Contour.length_edgeList]
    exact runOpenLinear_exact hc (registered (matches_edges b) (matches_segments a) vb.1 va.1) hne ha
      vb va (hc.contourBox _ hb).le_maxX (hc.segmentsBox _ ha).le_maxX

theorem sets_cases {n p a b : Prop} (k1 : a → p) (k2 : b → p) (k3 : p → n) {r : Relation}
    (h : match r with
      | .equal => a ∧ b
      | .component => a ∧ ¬ b
      | .composite => b ∧ ¬ a
      | .overlap => ¬ a ∧ ¬ b ∧ p
      | .cross | .touch => n ∧ ¬ p
      | .disjoint => ¬ n
      | _ => False) :
    (r = .equal ↔ a ∧ b) ∧ (r = .component ↔ a ∧ ¬ b) ∧ (r = .composite ↔ b ∧ ¬ a) ∧
    (r = .overlap ↔ ¬ a ∧ ¬ b ∧ p) ∧ (r = .cross ∨ r = .touch ↔ n ∧ ¬ p) ∧ (r = .disjoint ↔ ¬ n) := by
  by_cases hn : n <;> by_cases hp : p <;> by_cases ha : a <;> by_cases hb : b <;>
    cases r <;> simp_all

/-- For sets which are made of segments the relation is determined up to `TOUCH` and `CROSS`. -/
theorem SetsRel.cases_iff {S T : Set (Point K)} (hS : ∃ u : Segment K, u.Nondegenerate ∧ u.pts ⊆ S)
    (hT : ∃ u : Segment K, u.Nondegenerate ∧ u.pts ⊆ T) {r : Relation} (h : SetsRel S T r) :
    (r = .equal ↔ S = T) ∧ (r = .component ↔ S ⊂ T) ∧ (r = .composite ↔ T ⊂ S) ∧
    (r = .overlap ↔ ¬ S ⊆ T ∧ ¬ T ⊆ S ∧ SharesPiece S T) ∧
    (r = .cross ∨ r = .touch ↔ (S ∩ T).Nonempty ∧ ¬ SharesPiece S T) ∧
    (r = .disjoint ↔ S ∩ T = ∅) := by
  have k1 : S ⊆ T → SharesPiece S T := fun hs => by
    obtain ⟨u, hu, h⟩ := hS
    exact ⟨u, hu, h, h.trans hs⟩
  have k2 : T ⊆ S → SharesPiece S T := fun hs => by
    obtain ⟨u, hu, h⟩ := hT
    exact ⟨u, hu, h.trans hs, h⟩
  have k3 : SharesPiece S T → (S ∩ T).Nonempty := by
    rintro ⟨u, -, h1, h2⟩
    exact ⟨u.start, h1 u.start_mem, h2 u.start_mem⟩
  have k4 : S ∩ T = ∅ ↔ ¬ (S ∩ T).Nonempty := Set.not_nonempty_iff_eq_empty.symm
  have k5 : S = T ↔ S ⊆ T ∧ T ⊆ S := Set.Subset.antisymm_iff
  have k6 : S ⊂ T ↔ S ⊆ T ∧ ¬ T ⊆ S := Iff.rfl
  have k7 : T ⊂ S ↔ T ⊆ S ∧ ¬ S ⊆ T := Iff.rfl
  rw [k4, k5, k6, k7]
  refine sets_cases k1 k2 k3 ?_
  cases r
  all_goals first
    | exact h
    | exact k5.mp h
    | exact k6.mp h
    | exact k7.mp h
    | exact k4.mp h

/-- C18: the answers of `multisegment_in_multisegment` in terms of sets. -/
theorem C18_multisegment_in_multisegment_iff {context : Context K} (hc : context.Exact)
    {a b : Multisegment K} (ha : a.segments ≠ []) (hb : b.segments ≠ [])
    (va : SegmentsValid a.segments) (vb : SegmentsValid b.segments) :
    let S := segsPts a.segments
    let T := segsPts b.segments
    let answer := planar.multisegmentInMultisegment a b context
    (answer = .ok .equal ↔ S = T) ∧ (answer = .ok .component ↔ S ⊂ T) ∧
    (answer = .ok .composite ↔ T ⊂ S) ∧
    (answer = .ok .overlap ↔ ¬ S ⊆ T ∧ ¬ T ⊆ S ∧ SharesPiece S T) ∧
    (answer = .ok .cross ∨ answer = .ok .touch ↔ (S ∩ T).Nonempty ∧ ¬ SharesPiece S T) ∧
    (answer = .ok .disjoint ↔ S ∩ T = ∅) := by
  intro S T answer
  obtain ⟨r, hr, h⟩ := C18_multisegment_in_multisegment hc ha hb va vb
  have piece : ∀ {l : List (Segment K)}, l ≠ [] → SegmentsValid l →
      ∃ u : Segment K, u.Nondegenerate ∧ u.pts ⊆ segsPts l := fun hl vl => by
    obtain ⟨u, hu⟩ := List.exists_mem_of_ne_nil _ hl
    exact ⟨u, vl.1 u hu, fun x hx => ⟨u, hu, hx⟩⟩
  have e : ∀ r', answer = .ok r' ↔ r = r' := fun r' => by
    simp only [answer, hr, Except.ok.injEq]
  simp only [e]
  exact SetsRel.cases_iff (piece ha va) (piece hb vb) h

/-- C29: a valid multisegment, listed in any order and with any directions, equals itself. -/
theorem C29_multisegment {context : Context K} (hc : context.Exact) {a b : Multisegment K}
    (ha : a.segments ≠ []) (va : SegmentsValid a.segments) (hb : b.segments ≠ [])
    (vb : SegmentsValid b.segments) (h : segsPts a.segments = segsPts b.segments) :
    planar.multisegmentInMultisegment a b context = .ok .equal :=
  (C18_multisegment_in_multisegment_iff hc ha hb va vb).1.mpr h

/-- Multisegments with segments that cross each other, and all the answers. -/
example : let a : Multisegment ℚ := ⟨[⟨⟨0, 0⟩, ⟨4, 4⟩⟩, ⟨⟨0, 4⟩, ⟨4, 0⟩⟩]⟩
    let b : Multisegment ℚ := ⟨[⟨⟨1, 1⟩, ⟨2, 2⟩⟩, ⟨⟨3, 1⟩, ⟨1, 3⟩⟩]⟩
    let c : Multisegment ℚ := ⟨[⟨⟨1, 1⟩, ⟨5, 5⟩⟩, ⟨⟨3, 1⟩, ⟨1, 3⟩⟩]⟩
    let d : Multisegment ℚ := ⟨[⟨⟨1, 0⟩, ⟨1, 4⟩⟩, ⟨⟨3, 1⟩, ⟨3, 3⟩⟩]⟩
    let e : Multisegment ℚ := ⟨[⟨⟨0, 4⟩, ⟨2, 2⟩⟩, ⟨⟨4, 4⟩, ⟨0, 0⟩⟩, ⟨⟨2, 2⟩, ⟨4, 0⟩⟩]⟩
    let f : Multisegment ℚ := ⟨[⟨⟨1, 2⟩, ⟨1, 5/2⟩⟩, ⟨⟨0, 5⟩, ⟨4, 5⟩⟩]⟩
    (∀ m ∈ [a, b, c, d, e, f], m.segments ≠ [] ∧ SegmentsValid m.segments) ∧
    planar.multisegmentInMultisegment b a reference.context = .ok .component ∧
    planar.multisegmentInMultisegment a b reference.context = .ok .composite ∧
    planar.multisegmentInMultisegment c a reference.context = .ok .overlap ∧
    planar.multisegmentInMultisegment d a reference.context = .ok .cross ∧
    planar.multisegmentInMultisegment e a reference.context = .ok .equal ∧
    planar.multisegmentInMultisegment f a reference.context = .ok .disjoint := by
  refine ⟨?_, by decide +kernel⟩
  simp only [List.mem_cons, List.not_mem_nil, or_false, forall_eq_or_imp, forall_eq]
  refine ⟨⟨by simp, ?_⟩, ⟨by simp, ?_⟩, ⟨by simp, ?_⟩, ⟨by simp, ?_⟩, ⟨by simp, ?_⟩, ⟨by simp, ?_⟩⟩ <;>
    exact segmentsValid_of_check (by decide +kernel)

/-- A multisegment which overlaps with a contour. -/
example : let a : Multisegment ℚ := ⟨[⟨⟨1, 0⟩, ⟨5, 0⟩⟩, ⟨⟨4, 0⟩, ⟨1, 1⟩⟩]⟩
    let b : Contour ℚ := ⟨[⟨0, 0⟩, ⟨4, 0⟩, ⟨0, 4⟩]⟩
    a.segments ≠ [] ∧ b.vertices ≠ [] ∧ SegmentsValid a.segments ∧ SegmentsValid b.edgeList ∧
    planar.multisegmentInContour a b reference.context = .ok .overlap := by
  refine ⟨by simp, by simp, segmentsValid_of_check (by decide +kernel),
    segmentsValid_of_check (by decide +kernel), by decide +kernel⟩

end Orient.Props
