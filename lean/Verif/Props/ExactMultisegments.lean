import Verif.Props.MultisegmentsCross
import Verif.Props.MovedAll
import Verif.Props.Rewritten
import Verif.Lemmas.Sweep.WideTurns

/-! C81: exactly what is answered about two multisegments. -/

set_option linter.unusedSectionVars false

namespace Orient.Props

open eventsQueue State

variable {K : Type} [Field K] [LinearOrder K] [IsStrictOrderedRing K]

theorem WidelyCross.meet {a b : List (Segment K)} (h : WidelyCross a b) :
    (segsPts a ∩ segsPts b).Nonempty := by
  obtain ⟨p, ⟨u, hu, v, hv, h1, h2⟩ | h⟩ := h
  · exact ⟨p, ⟨u, hu, h1.1⟩, v, hv, h2.1⟩
  · obtain ⟨x, y, u, v, h1, -, h3, -⟩ := h.crossesAt
    exact ⟨p, h1 (Segment.start_mem _), h3 (Segment.start_mem _)⟩

/-- C81: the exact answer of `multisegment_in_multisegment`. -/
theorem C81_multisegment_in_multisegment {context : Context K} (hc : context.Exact)
    {a b : Multisegment K} (ha : a.segments ≠ []) (hb : b.segments ≠ [])
    (va : SegmentsValid a.segments) (vb : SegmentsValid b.segments) :
    ∃ r, planar.multisegmentInMultisegment a b context = .ok r ∧
      ∀ q, MultisegmentsRel a.segments b.segments q ↔ q = r := by
  obtain ⟨r, hr, h⟩ := C18_multisegment_in_multisegment hc ha hb va vb
  refine ⟨r, hr, ?_⟩
  obtain ⟨x1, x2, x3, x4, x5, x6⟩ := C18_multisegment_in_multisegment_iff hc ha hb va vb
  have hx : ¬ SharesPiece (segsPts a.segments) (segsPts b.segments) →
      (r = .cross → WidelyCross a.segments b.segments) ∧
      (WidelyCross a.segments b.segments → r ≠ .touch ∧ r ≠ .disjoint) := by
    intro hns
    have hr' := hr
    unfold planar.multisegmentInMultisegment multisegment.relateMultisegment at hr'
    simp only at hr'
    split_ifs at hr' with hd
    · obtain rfl := Except.ok.inj hr'
      refine ⟨fun h => by (cases h), fun hw => ?_⟩
      obtain ⟨p, h1, h2⟩ := WidelyCross.meet hw
      have := box.not_disjointWith (hc.segmentsBox _ hb) (hc.segmentsBox _ ha) h2 h1
      simp_all
    · exact runOpenLinear_wide hc (registered (matches_segments b) (matches_segments a) vb.1 va.1)
        vb va (hc.segmentsBox _ hb).le_maxX (hc.segmentsBox _ ha).le_maxX hr' hns
  rw [hr] at x1 x2 x3 x4 x5 x6
  simp only [Except.ok.injEq] at x1 x2 x3 x4 x5 x6
  have meet := WidelyCross.meet (a := a.segments) (b := b.segments)
  have hemp := Set.not_nonempty_iff_eq_empty (s := segsPts a.segments ∩ segsPts b.segments)
  generalize hX : WidelyCross a.segments b.segments = X at *
  generalize hY : SharesPiece (segsPts a.segments) (segsPts b.segments) = Y at *
  generalize hZ : (segsPts a.segments ∩ segsPts b.segments).Nonempty = Z at *
  intro q
  cases q <;> simp only [MultisegmentsRel, hX, hY, hZ]
  case disjoint => rw [← x6]; exact eq_comm
  case equal => rw [← x1]; exact eq_comm
  case component => rw [← x2]; exact eq_comm
  case composite => rw [← x3]; exact eq_comm
  case overlap => rw [← x4]; exact eq_comm
  case touch => grind
  case cross => grind
  all_goals
    refine iff_of_false id ?_
    rintro rfl
    exact h

/-- C81: the order and the directions of the segments do not matter. -/
theorem C81_rewritten {context : Context K} (hc : context.Exact) {a a' b b' : Multisegment K}
    (ha : a.segments ≠ []) (hb : b.segments ≠ []) (va : SegmentsValid a.segments)
    (vb : SegmentsValid b.segments) (va' : SegmentsValid a'.segments) (vb' : SegmentsValid b'.segments)
    (ra : a.Rewritten a') (rb : b.Rewritten b') :
    planar.multisegmentInMultisegment a b context = planar.multisegmentInMultisegment a' b' context := by
  refine answers_eq (C81_multisegment_in_multisegment hc ha hb va vb)
    (C81_multisegment_in_multisegment hc (fun h => ha ((sameUpTo_nil ra).mpr h))
      (fun h => hb ((sameUpTo_nil rb).mpr h)) va' vb') fun q => ?_
  have e1 := rewritten_segsPts ra
  have e2 := rewritten_segsPts rb
  have l1 : ∀ w ∈ a.segments ++ b.segments, ∃ w' ∈ a'.segments ++ b'.segments, w'.pts = w.pts := by
    intro w hw
    rcases List.mem_append.mp hw with hw | hw
    · obtain ⟨w', h1, h2⟩ := ra.1 w hw
      exact ⟨w', List.mem_append_left _ h1, (rewritten_pts h2).symm⟩
    · obtain ⟨w', h1, h2⟩ := rb.1 w hw
      exact ⟨w', List.mem_append_right _ h1, (rewritten_pts h2).symm⟩
  have l2 : ∀ w ∈ a'.segments ++ b'.segments, ∃ w' ∈ a.segments ++ b.segments, w'.pts = w.pts := by
    intro w hw
    rcases List.mem_append.mp hw with hw | hw
    · obtain ⟨w', h1, h2⟩ := ra.2 w hw
      exact ⟨w', List.mem_append_left _ h1, rewritten_pts h2⟩
    · obtain ⟨w', h1, h2⟩ := rb.2 w hw
      exact ⟨w', List.mem_append_right _ h1, rewritten_pts h2⟩
  have e3 : WidelyCross a.segments b.segments ↔ WidelyCross a'.segments b'.segments := by
    unfold WidelyCross
    refine exists_congr fun p => or_congr ?_ ?_
    · refine sameUpTo_exists ra fun u u' ru => sameUpTo_exists rb fun v v' rv => ?_
      rw [rewritten_pts ru, rewritten_pts rv, rewritten_isEndpoint ru, rewritten_isEndpoint rv]
    · rw [e1, e2]
      exact ⟨fun h => h.of_pts l1 l2, fun h => h.of_pts l2 l1⟩
  cases q <;> simp only [MultisegmentsRel, e1, e2, e3]

section

variable {f : Affine K} {k : K}

/-- A translation after a scaling with a positive factor. -/
theorem similar_lt (hk : 0 < k) (h : f.xx = k ∧ f.yy = k ∧ f.xy = 0 ∧ f.yx = 0) (p q : Point K) :
    f.apply p < f.apply q ↔ p < q := by
  obtain ⟨h1, h2, h3, h4⟩ := h
  simp only [Point.lt_iff, Affine.apply, h1, h2, h3, h4, zero_mul, add_zero, zero_add,
    add_lt_add_iff_right, add_left_inj, mul_lt_mul_iff_right₀ hk, mul_right_inj' hk.ne']

theorem similar_swept (hk : 0 < k) (h : f.xx = k ∧ f.yy = k ∧ f.xy = 0 ∧ f.yx = 0) (p a b : Point K) :
    SweptBefore (f.apply p) (f.apply a) (f.apply b) ↔ SweptBefore p a b := by
  have hd : 0 < f.det := by
    obtain ⟨h1, h2, h3, h4⟩ := h
    simp only [Affine.det, h1, h2, h3, h4]
    nlinarith
  unfold SweptBefore
  simp only [similar_lt hk h, affine_cross, mul_neg_iff, mul_pos_iff, hd, hd.not_gt, true_and, false_and,
    or_false, false_or]

theorem similar_cosine (hk : 0 < k) (h : f.xx = k ∧ f.yy = k ∧ f.xy = 0 ∧ f.yx = 0) (p g a : Point K) :
    signedCosine (f.apply p) (f.apply g) (f.apply a) = k * k * signedCosine p g a := by
  obtain ⟨h1, h2, h3, h4⟩ := h
  have e : ∀ x y : Point K, ((f.apply x).x - (f.apply p).x) * ((f.apply y).x - (f.apply p).x)
      + ((f.apply x).y - (f.apply p).y) * ((f.apply y).y - (f.apply p).y)
      = k * k * ((x.x - p.x) * (y.x - p.x) + (x.y - p.y) * (y.y - p.y)) := by
    intro x y
    simp only [Affine.apply, h1, h2, h3, h4]
    ring
  simp only [signedCosine, e, mul_pos_iff_of_pos_left (mul_pos hk hk)]
  set d := (g.x - p.x) * (a.x - p.x) + (g.y - p.y) * (a.y - p.y)
  set N := (a.x - p.x) * (a.x - p.x) + (a.y - p.y) * (a.y - p.y)
  have hk0 := hk.ne'
  by_cases hN : N = 0
  · rw [hN]; simp
  · field_simp

theorem similar_sameRay (hd : f.det ≠ 0) (p a b : Point K) :
    SameRay (f.apply p) (f.apply a) (f.apply b) ↔ SameRay p a b := by
  unfold SameRay
  refine exists_congr fun t => and_congr_right fun _ => ?_
  have : lerp (f.apply p) (f.apply a) t = f.apply (lerp p a t) := by
    refine Point.ext ?_ ?_ <;> simp only [lerp, Affine.apply] <;> ring
  rw [this, (affine_inj hd).eq_iff]

theorem similar_jumps (hk : 0 < k) (h : f.xx = k ∧ f.yy = k ∧ f.xy = 0 ∧ f.yx = 0)
    (l : List (Segment K)) (p a : Point K) :
    Jumps (l.map f.segment) (f.apply p) (f.apply a) ↔ Jumps l p a := by
  have hd : f.det ≠ 0 := by
    obtain ⟨h1, h2, h3, h4⟩ := h
    simp only [Affine.det, h1, h2, h3, h4]
    have := hk.ne'
    simpa using this
  have i := affine_inj hd
  have le : ∀ x y : Point K, f.apply x ≤ f.apply y ↔ x ≤ y := fun x y => by
    rw [← not_lt, ← not_lt, similar_lt hk h]
  have least : ∀ (w : Segment K) (p : Point K), IsLeast (f.segment w).pts (f.apply p) ↔ IsLeast w.pts p := by
    intro w p
    unfold IsLeast
    rw [affine_segment_pts, i.mem_set_image]
    refine and_congr_right fun _ => ?_
    simp only [lowerBounds, Set.mem_setOf_eq, Set.forall_mem_image, le]
  have begins : ∀ b, Begins (l.map f.segment) (f.apply p) (f.apply b) ↔ Begins l p b := by
    intro b
    unfold Begins
    simp only [List.mem_map, exists_exists_and_eq_and, least]
    refine exists_congr fun w => and_congr_right fun _ => and_congr_right fun _ => ?_
    simp only [affine_segment_pts, Set.exists_mem_image, i.ne_iff, similar_sameRay hd]
  unfold Jumps
  rw [begins, (affine_surj hd).forall]
  simp only [begins, similar_swept hk h, List.mem_map, exists_exists_and_eq_and, affine_isEndpoint hd,
    forall_exists_index, and_imp, forall_apply_eq_imp_iff₂, least]
  simp only [affine_segment_pts, i.mem_set_image, i.image_injective.eq_iff]

theorem similar_widely (hk : 0 < k) (h : f.xx = k ∧ f.yy = k ∧ f.xy = 0 ∧ f.yx = 0)
    (a b : List (Segment K)) :
    WidelyCross (a.map f.segment) (b.map f.segment) ↔ WidelyCross a b := by
  have hd : 0 < f.det := by
    obtain ⟨h1, h2, h3, h4⟩ := h
    simp only [Affine.det, h1, h2, h3, h4]
    nlinarith
  have i := affine_inj hd.ne'
  have s := affine_surj hd.ne'
  have k2 := mul_pos hk hk
  have met : ∀ (l : List (Segment K)) (p x y : Point K),
      MetBefore (l.map f.segment) (f.apply p) (f.apply x) (f.apply y) ↔ MetBefore l p x y := by
    intro l p x y
    unfold MetBefore
    rw [similar_jumps hk h, similar_jumps hk h, similar_swept hk h]
  have way : ∀ (S : Set (Point K)) (p x : Point K),
      Way (f.apply '' S) (f.apply p) (f.apply x) ↔ Way S p x := by
    intro S p x
    unfold Way
    rw [i.ne_iff, affine_piece hd.ne']
  have angle : ∀ p x y z : Point K, InAngle (f.apply p) (f.apply x) (f.apply y) (f.apply z) ↔
      InAngle p x y z := by
    intro p x y z
    unfold InAngle
    simp only [affine_cross, mul_neg_iff, mul_pos_iff, hd, hd.not_gt, true_and, false_and, or_false]
  have wide : ∀ (l : List (Segment K)) (T : Set (Point K)) (p g x : Point K),
      WidestWay (l.map f.segment) (f.apply '' T) (f.apply p) (f.apply g) (f.apply x) ↔
        WidestWay l T p g x := by
    intro l T p g x
    unfold WidestWay
    rw [way, s.forall]
    simp only [way, similar_cosine hk h, met, similar_sameRay hd.ne', mul_lt_mul_iff_right₀ k2,
      mul_right_inj' k2.ne']
  have first : ∀ (l : List (Segment K)) (T : Set (Point K)) (p x : Point K),
      FirstWay (l.map f.segment) (f.apply '' T) (f.apply p) (f.apply x) ↔ FirstWay l T p x := by
    intro l T p x
    unfold FirstWay
    rw [way, s.forall]
    simp only [way, met, similar_sameRay hd.ne']
  unfold WidelyCross
  rw [s.exists]
  refine exists_congr fun p => or_congr ?_ ?_
  · simp only [List.mem_map, exists_exists_and_eq_and, affine_isEndpoint hd.ne', affine_segment_pts,
      i.mem_set_image]
  · unfold WidelyCrossesAt
    rw [← List.map_append, affine_segsPts, affine_segsPts]
    constructor
    · rintro ⟨d, g, h, x, y, hyp⟩
      obtain ⟨d, rfl⟩ := s d
      obtain ⟨g, rfl⟩ := s g
      obtain ⟨h, rfl⟩ := s h
      obtain ⟨x, rfl⟩ := s x
      obtain ⟨y, rfl⟩ := s y
      exact ⟨d, g, h, x, y, by simpa only [first, wide, way, angle] using hyp⟩
    · rintro ⟨d, g, h, x, y, hyp⟩
      exact ⟨f.apply d, f.apply g, f.apply h, f.apply x, f.apply y,
        by simpa only [first, wide, way, angle] using hyp⟩

/-- C81: translations and scalings with positive factors do not change the answer. -/
theorem C81_moved {context : Context K} (hc : context.Exact) {a b : Multisegment K}
    (ha : a.segments ≠ []) (hb : b.segments ≠ []) (va : SegmentsValid a.segments)
    (vb : SegmentsValid b.segments) (hk : 0 < k)
    (h : f.xx = k ∧ f.yy = k ∧ f.xy = 0 ∧ f.yx = 0) :
    planar.multisegmentInMultisegment (f.multisegment a) (f.multisegment b) context =
      planar.multisegmentInMultisegment a b context := by
  have hd : f.det ≠ 0 := by
    obtain ⟨h1, h2, h3, h4⟩ := h
    simp only [Affine.det, h1, h2, h3, h4]
    have := hk.ne'
    simpa using this
  have i := affine_inj hd
  refine answers_eq (C81_multisegment_in_multisegment hc (a := f.multisegment a)
    (b := f.multisegment b) (by simpa [Affine.multisegment] using ha)
    (by simpa [Affine.multisegment] using hb) (affine_segmentsValid hd va) (affine_segmentsValid hd vb))
    (C81_multisegment_in_multisegment hc ha hb va vb) fun q => ?_
  have e1 : segsPts (f.multisegment a).segments = f.apply '' segsPts a.segments := affine_segsPts f _
  have e2 : segsPts (f.multisegment b).segments = f.apply '' segsPts b.segments := affine_segsPts f _
  have e3 : WidelyCross (f.multisegment a).segments (f.multisegment b).segments ↔
      WidelyCross a.segments b.segments := similar_widely hk h _ _
  cases q <;> simp only [MultisegmentsRel, e1, e2, e3, affine_sharesPiece hd, ← Set.image_inter i,
    Set.image_nonempty, Set.image_subset_image_iff i, Set.image_eq_empty, i.image_injective.eq_iff,
    ssubset_iff_subset_not_subset]

end

/-- Segments from the origin. -/
def rays (l : List (Point ℚ)) : Multisegment ℚ := ⟨l.map fun p => ⟨⟨0, 0⟩, p⟩⟩

/-- The multisegment `a` is crossed where it has two ways and `b` has three. -/
example : SegmentsValid (rays [⟨-2, 2⟩, ⟨1, 1⟩]).segments ∧
    SegmentsValid (rays [⟨-2, 0⟩, ⟨0, 1⟩, ⟨1, -1⟩]).segments :=
  ⟨segmentsValid_of_check (by decide +kernel), segmentsValid_of_check (by decide +kernel)⟩

/-- Turning both operands by 180 degrees changes the answer: no such theorem holds of rotations. -/
theorem C81_rotation_counterexample :
    planar.multisegmentInMultisegment (rays [⟨-2, 2⟩, ⟨1, 1⟩]) (rays [⟨-2, 0⟩, ⟨0, 1⟩, ⟨1, -1⟩])
      (reference.context : Context ℚ) = .ok .touch ∧
    planar.multisegmentInMultisegment (rays [⟨2, -2⟩, ⟨-1, -1⟩]) (rays [⟨2, 0⟩, ⟨0, -1⟩, ⟨-1, 1⟩])
      (reference.context : Context ℚ) = .ok .cross := by
  decide +kernel

/-- Nor of rotations by 90 degrees. -/
theorem C81_quarter_turn_counterexample :
    planar.multisegmentInMultisegment (rays [⟨-1, 0⟩, ⟨2, 2⟩]) (rays [⟨-2, -1⟩, ⟨2, 0⟩, ⟨-2, 1⟩])
      (reference.context : Context ℚ) = .ok .touch ∧
    planar.multisegmentInMultisegment (rays [⟨0, -1⟩, ⟨-2, 2⟩]) (rays [⟨1, -2⟩, ⟨0, 2⟩, ⟨-1, -2⟩])
      (reference.context : Context ℚ) = .ok .cross := by
  decide +kernel

/-- Nor of reflections. -/
theorem C81_reflection_counterexample :
    planar.multisegmentInMultisegment (rays [⟨-2, 2⟩, ⟨1, 1⟩]) (rays [⟨-2, 0⟩, ⟨0, 1⟩, ⟨1, -1⟩])
      (reference.context : Context ℚ) = .ok .touch ∧
    planar.multisegmentInMultisegment (rays [⟨-2, -2⟩, ⟨1, -1⟩]) (rays [⟨-2, 0⟩, ⟨0, -1⟩, ⟨1, 1⟩])
      (reference.context : Context ℚ) = .ok .cross := by
  decide +kernel

/-- Dividing a segment of an operand at the common point changes the answer, although the points of the
operands stay the same: the answer is not determined by them. -/
theorem C81_division_counterexample :
    planar.multisegmentInMultisegment
      ⟨[⟨⟨0, 0⟩, ⟨6, 1⟩⟩, ⟨⟨0, 0⟩, ⟨6, -1⟩⟩]⟩
      ⟨[⟨⟨-1, 0⟩, ⟨6, 0⟩⟩, ⟨⟨0, 0⟩, ⟨1, 10⟩⟩, ⟨⟨0, 0⟩, ⟨1, -6⟩⟩]⟩
      (reference.context : Context ℚ) = .ok .touch ∧
    planar.multisegmentInMultisegment
      ⟨[⟨⟨0, 0⟩, ⟨6, 1⟩⟩, ⟨⟨0, 0⟩, ⟨6, -1⟩⟩]⟩
      ⟨[⟨⟨-1, 0⟩, ⟨0, 0⟩⟩, ⟨⟨0, 0⟩, ⟨6, 0⟩⟩, ⟨⟨0, 0⟩, ⟨1, 10⟩⟩, ⟨⟨0, 0⟩, ⟨1, -6⟩⟩]⟩
      (reference.context : Context ℚ) = .ok .cross := by
  decide +kernel

end Orient.Props
