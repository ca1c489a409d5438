import Verif.Spec.Misread
import Verif.Props.ExactSegments

/-! C83: what `segment_in_region` answers for all segments and all simple contours.

C75 leaves out segments with both endpoints on a contour which is listed clockwise, one of them a vertex.  There the
code compares directions with a vertex which is not a neighbour; which one that is, is said in `Spec/Misread`. -/

set_option linter.unusedSectionVars false

namespace Orient.Props

variable {K : Type} [Field K] [LinearOrder K] [IsStrictOrderedRing K]

open Segment

theorem clockwise_iff {c : Contour K} (h : c.Simple) {p v q : Point K} (hl : c.LeastCorner p v q) :
    c.Clockwise ↔ cross p v q < 0 := by
  refine ⟨fun ⟨p', v', q', hl', h'⟩ => ?_, fun h' => ⟨p, v, q, hl, h'⟩⟩
  have e1 := contour.orientation_eq (reference.context : Context K) h.nodup hl
  have e2 := contour.orientation_eq (reference.context : Context K) h.nodup hl'
  rw [e1] at e2
  rw [← reference.context_exact.clockwise, Except.ok.inj e2, reference.context_exact.clockwise]
  exact h'

theorem isEndpoint_vertices {c : Contour K} (h : c.Simple) {x : Point K} {k : Nat} {e : Segment K}
    (he : c.edgeList[k]? = some e) (hend : e.IsEndpoint x) : x ∈ c.vertices := by
  have h2 : 2 ≤ c.vertices.length := by have := h.three; omega
  have hk : k < c.vertices.length := by
    rw [← Contour.length_edgeList]; exact (List.getElem?_eq_some_iff.mp he).1
  obtain ⟨k', hk'⟩ := c.exists_prev hk
  rcases hend with rfl | rfl
  · exact List.mem_of_getElem? (Contour.edge_start c h2 hk' he)
  · exact List.mem_of_getElem? (Contour.edge_finish c he)

/-- A vertex on an edge is one of its endpoints. -/
theorem isEndpoint_of_vertex {c : Contour K} (h : c.Simple) {x : Point K} {k : Nat} {e : Segment K}
    (he : c.edgeList[k]? = some e) (hx : x ∈ e.pts) (hv : x ∈ c.vertices) : e.IsEndpoint x := by
  by_contra hend
  obtain ⟨i, hi⟩ := List.mem_iff_getElem?.mp hv
  have hi' : i < c.vertices.length := (List.getElem?_eq_some_iff.mp hi).1
  have hf : c.edgeList[i]? = some (c.edgeList[i]'(by rwa [Contour.length_edgeList])) := List.getElem?_eq_getElem _
  have h1 := Contour.edge_finish c hf
  rw [hi] at h1
  have := h.edges_at_inner (List.mem_of_getElem? he) (List.mem_of_getElem? hf) hx hend
    (Option.some.inj h1 ▸ finish_mem _)
  exact hend (.inr (by rw [← this]; exact Option.some.inj h1))

/-- Where a vertex which is not the last one is found, and what is taken for the next one. -/
theorem misread_iff {c : Contour K} (h : c.Simple) {i : Nat} {e : Segment K} (he : c.edgeList[i]? = some e)
    (e1 : c.vertices.getLast? ≠ some e.finish) :
    ∃ w, pyGet c.vertices ((c.vertices.length : Int) - i - 3) = .ok w ∧
      ∀ a w', c.Misread e.finish a w' ↔ a = e.start ∧ w' = w := by
  have h3 := h.three
  have hi : i < c.vertices.length := by
    rw [← Contour.length_edgeList]; exact (List.getElem?_eq_some_iff.mp he).1
  have hv := Contour.edge_finish c he
  have hlast : i + 1 < c.vertices.length := by
    rw [List.getLast?_eq_getElem?] at e1
    by_contra hh
    exact e1 (by rw [show c.vertices.length - 1 = i by omega]; exact hv)
  have key : ∀ w, pyGet c.vertices ((c.vertices.length : Int) - i - 3) = .ok w ↔
      c.vertices[if i + 3 ≤ c.vertices.length then c.vertices.length - 3 - i else c.vertices.length - 1]? = some w := by
    intro w
    by_cases hh : i + 3 ≤ c.vertices.length
    · rw [if_pos hh, show (c.vertices.length : Int) - i - 3 = ((c.vertices.length - 3 - i : Nat) : Int) by omega,
        pyGet_of_lt _ _ (by omega), List.getElem?_eq_getElem (by omega)]
      simp
    · rw [if_neg hh, show (c.vertices.length : Int) - i - 3 = -((0 : Nat) : Int) - 1 by omega,
        pyGet_neg _ _ (by omega), List.getElem?_eq_getElem (by omega)]
      simp
  obtain ⟨w, hw⟩ := pyGet_total c.vertices ((c.vertices.length : Int) - i - 3) (by omega) (by omega)
  refine ⟨w, hw, fun a w' => ⟨?_, ?_⟩⟩
  · rintro ⟨j, hj, hjv, ha, hw'⟩
    obtain rfl : j = i := by
      rw [← hv] at hjv
      exact (List.getElem?_inj (by omega) h.nodup).mp hjv
    rw [← key, hw] at hw'
    refine ⟨?_, (Except.ok.inj hw').symm⟩
    have hm := List.mem_of_getElem? he
    obtain ⟨-, -, -, b, hb, -⟩ := c.vertices_at (by omega) he
    rcases h.edges_at (a := e.start) (w := e.finish) hm hb ha (finish_mem _) with h' | h'
    · exact congrArg Segment.start h'
    · simp only [Segment.mk.injEq] at h'
      exact absurd h'.1 (h.nondegenerate ha)
  · rintro ⟨rfl, rfl⟩
    exact ⟨i, hlast, hv, List.mem_of_getElem? he, (key _).mp hw⟩

theorem misread_last {c : Contour K} (h : c.Simple) {p a w : Point K} (hp : c.vertices.getLast? = some p) :
    ¬ c.Misread p a w := by
  rintro ⟨j, hj, hjv, -⟩
  rw [List.getLast?_eq_getElem?, ← hjv] at hp
  have := (List.getElem?_inj (by have := h.three; omega) h.nodup).mp hp
  omega

/-- What the test at the start says. -/
theorem touchesAtStart_all {context : Context K} (hc : context.Exact) {c : Contour K} (h : c.Simple)
    {p v q : Point K} (hl : c.LeastCorner p v q) (hn : cross p v q ≠ 0) {i : Nat} {e : Segment K}
    (he : c.edgeList[i]? = some e) {start finish : Point K} (hw : start ∈ e.pts)
    (hfirst : ∀ k < i, ∀ f, c.edgeList[k]? = some f → start ∉ f.pts) (hne : start ≠ finish) :
    region.touchesAtStart context c.vertices (context.angleOrientation p v q) i start finish = .ok true ↔
      c.StartSeems start finish := by
  unfold Contour.StartSeems
  by_cases hcv : c.Clockwise ∧ start ∈ c.vertices
  swap
  · simp only [hcv, false_imp_iff, not_false_eq_true, true_imp_iff, true_and]
    refine touchesAtStart_exact hc h hl hn he hw hfirst hne ?_
    by_cases hcl : c.Clockwise
    · exact .inr fun hend => hcv ⟨hcl, isEndpoint_vertices h he hend⟩
    · exact .inl (lt_of_le_of_ne (not_lt.mp fun h' => hcl ((clockwise_iff h hl).mpr h')) hn.symm)
  simp only [hcv, not_true_eq_false, false_imp_iff, true_imp_iff, and_true]
  have h2 : 2 ≤ c.vertices.length := by have := h.three; omega
  have hcl := (clockwise_iff h hl).mp hcv.1
  have ho := (hc.clockwise p v q).mpr hcl
  obtain ⟨g1, g2, ⟨a, ha, g3⟩, b, hb, g4⟩ := c.vertices_at h2 he
  have last := h.first_start he hw hfirst
  unfold region.touchesAtStart
  simp only [g1, g2, g3, g4, bind, Except.bind, pure, Except.pure, ho, reduceCtorEq, decide_false, Bool.false_eq_true,
    if_false]
  by_cases e1 : start = e.start
  · have hlast := last.mp e1
    subst e1
    have h0 : context.angleOrientation e.finish e.start e.finish ≠ .clockwise := by
      rw [ne_eq, hc.clockwise]
      simp [cross]
    have h1 : ¬ (context.angleOrientation e.start e.finish finish = context.angleOrientation e.finish e.start finish ∧
        context.angleOrientation e.finish e.start finish = .clockwise) := by
      rintro ⟨k1, k2⟩
      rw [k2] at k1
      rw [hc.clockwise] at k1 k2
      rw [cross_flip] at k2
      linarith
    simp only [if_true, h0, if_false, Except.ok.injEq, Bool.and_eq_true, decide_eq_true_eq, h1, false_iff, not_exists,
      not_and]
    intro a w hm
    exact absurd hm (misread_last h hlast)
  · have e2 : start = e.finish := (isEndpoint_of_vertex h he hw hcv.2).resolve_left e1
    subst e2
    obtain ⟨w, hw', hmis⟩ := misread_iff h he fun h' => e1 (last.mpr h')
    simp only [e1, if_false, if_true, hw', hmis]
    have hx : (∃ a w_1, (a = e.start ∧ w_1 = w) ∧ cross a e.finish w_1 < 0 ∧
        (cross e.finish a finish < 0 ∨ cross w_1 e.finish finish < 0)) ↔ cross e.start e.finish w < 0 ∧
        (cross e.finish e.start finish < 0 ∨ cross w e.finish finish < 0) := by
      constructor
      · rintro ⟨_, _, ⟨rfl, rfl⟩, h'⟩; exact h'
      · exact fun h' => ⟨_, _, ⟨rfl, rfl⟩, h'⟩
    rw [hx]
    simp only [← hc.clockwise]
    split_ifs with k1 k2
    · simp [k1, k2]
    · simp only [k1, k2, and_false, iff_false, Except.ok.injEq, Bool.and_eq_true, decide_eq_true_eq]
      exact fun k3 => k2 (.inr k3.2)
    · simp [k1]

/-- What the test at the end says. -/
theorem touchesAtEnd_all {context : Context K} (hc : context.Exact) {c : Contour K} (h : c.Simple)
    {p v q : Point K} (hl : c.LeastCorner p v q) (hn : cross p v q ≠ 0) {i : Nat} {e : Segment K}
    (he : c.edgeList[i]? = some e) {start finish : Point K} (hw : finish ∈ e.pts)
    (hfirst : ∀ k < i, ∀ f, c.edgeList[k]? = some f → finish ∉ f.pts) (hne : finish ≠ start) :
    region.touchesAtEnd context c.vertices (context.angleOrientation p v q) i start finish = .ok true ↔
      c.EndSeems finish start := by
  unfold Contour.EndSeems
  by_cases hcv : c.Clockwise ∧ finish ∈ c.vertices
  swap
  · simp only [hcv, false_imp_iff, not_false_eq_true, true_imp_iff, true_and]
    refine touchesAtEnd_exact hc h hl hn he hw hne ?_
    by_cases hcl : c.Clockwise
    · exact .inr fun hend => hcv ⟨hcl, isEndpoint_vertices h he hend⟩
    · exact .inl (lt_of_le_of_ne (not_lt.mp fun h' => hcl ((clockwise_iff h hl).mpr h')) hn.symm)
  simp only [hcv, not_true_eq_false, false_imp_iff, true_imp_iff, and_true]
  have h2 : 2 ≤ c.vertices.length := by have := h.three; omega
  have hcl := (clockwise_iff h hl).mp hcv.1
  have ho := (hc.clockwise p v q).mpr hcl
  obtain ⟨g1, g2, ⟨a, ha, g3⟩, b, hb, g4⟩ := c.vertices_at h2 he
  have last := h.first_start he hw hfirst
  unfold region.touchesAtEnd
  simp only [g1, g2, g3, g4, bind, Except.bind, pure, Except.pure, ho, reduceCtorEq, decide_false, Bool.false_eq_true,
    if_false]
  by_cases e1 : finish = e.start
  · have hlast := last.mp e1
    subst e1
    have h0 : context.angleOrientation e.finish e.start e.finish ≠ .clockwise := by
      rw [ne_eq, hc.clockwise]
      simp [cross]
    have h1 : ¬ (context.angleOrientation e.start e.finish start = context.angleOrientation e.finish e.start start ∧
        context.angleOrientation e.finish e.start start = .clockwise) := by
      rintro ⟨k1, k2⟩
      rw [k2] at k1
      rw [hc.clockwise] at k1 k2
      rw [cross_flip] at k2
      linarith
    simp only [if_true, h0, if_false, Except.ok.injEq, Bool.and_eq_true, decide_eq_true_eq, h1, false_iff, not_exists,
      not_and]
    intro a w hm
    exact absurd hm (misread_last h hlast)
  · have e2 : finish = e.finish := (isEndpoint_of_vertex h he hw hcv.2).resolve_left e1
    subst e2
    obtain ⟨w, hw', hmis⟩ := misread_iff h he fun h' => e1 (last.mpr h')
    simp only [e1, if_false, if_true, hw', hmis]
    have hx : (∃ a w_1, (a = e.start ∧ w_1 = w) ∧ if cross a e.finish w_1 < 0 then
        cross e.finish a start < 0 ∨ cross w_1 e.finish start < 0 else
        cross e.finish a start < 0 ∧ cross w_1 e.finish start < 0) ↔ if cross e.start e.finish w < 0 then
        cross e.finish e.start start < 0 ∨ cross w e.finish start < 0 else
        cross e.finish e.start start < 0 ∧ cross w e.finish start < 0 := by
      constructor
      · rintro ⟨_, _, ⟨rfl, rfl⟩, h'⟩; exact h'
      · exact fun h' => ⟨_, _, ⟨rfl, rfl⟩, h'⟩
    rw [hx]
    simp only [← hc.clockwise]
    split_ifs with k1
    · simp
    · simp only [Except.ok.injEq, Bool.and_eq_true, decide_eq_true_eq]
      exact ⟨fun k => ⟨k.1.trans k.2, k.2⟩, fun k => ⟨k.1.trans k.2.symm, k.2⟩⟩

/-- C83: what `segment_in_region` answers, as in C75, but for all segments and all simple contours: from a vertex of a
contour which is listed clockwise it is not examined whether the segment goes outwards, but where it goes from there with
respect to the vertex before and some other vertex. -/
theorem C83_segment_in_region {context : Context K} (hc : context.Exact) {s : Segment K}
    (hs : s.Nondegenerate) {c : Contour K} (h : c.Simple) :
    ∃ r, planar.segmentInRegion s c context = .ok r ∧ ∀ q,
      SegmentAnswer
        ((∃ e ∈ c.edgeList, ∃ p, s.pts ∩ e.pts = {p} ∧ ¬ s.IsEndpoint p ∧ ¬ e.IsEndpoint p) ∨
          ∃ a w b, ⟨a, w⟩ ∈ c.edgeList ∧ ⟨w, b⟩ ∈ c.edgeList ∧ w ∈ s.pts ∧ ¬ s.IsEndpoint w ∧
            cross s.start s.finish a * cross s.start s.finish b < 0)
        (∃ e ∈ c.edgeList, s.pts ⊆ e.pts) (c.SeemsOutside s)
        s.pts c.interior c.pts c.exterior q ↔ q = r := by
  change ∃ r, _ ∧ ∀ q, SegmentAnswer (CrossesEdges c s) _ _ _ _ _ _ q ↔ q = r
  obtain ⟨r, hr, -⟩ := C66_always_answers hc hs h
  refine ⟨r, hr, ?_⟩
  -- it is enough to show that `r` is described, and that something applies
  have only : ∀ {X Y O : Prop} {S I B E : Set (Point K)}, SegmentAnswer X Y O S I B E r →
      (X ∨ Y ∨ S ⊆ I ∨ S ⊆ E ∨ (S ∩ B).Nonempty) → ∀ q, SegmentAnswer X Y O S I B E q ↔ q = r := by
    intro X Y O S I B E h1 h2 q
    refine ⟨fun h' => ?_, fun e => e ▸ h1⟩
    obtain ⟨a1, a2, a3, a4, a5⟩ := h1
    obtain ⟨b1, b2, b3, b4, b5⟩ := h'
    by_cases hX : X
    · rw [a1 hX, b1 hX]
    by_cases hY : Y
    · rw [a2 hY, b2 hY]
    rcases h2 with h2 | h2 | h2 | h2 | h2
    · exact absurd h2 hX
    · exact absurd h2 hY
    · rw [a3 h2, b3 h2]
    · rw [a4 h2, b4 h2]
    · by_cases hO : O
      · rw [(a5 hX hY h2).1 hO, (b5 hX hY h2).1 hO]
      · rw [(a5 hX hY h2).2 hO, (b5 hX hY h2).2 hO]
  have hX : CrossesEdges c s → r = .cross := fun h' => by
    have := (C66_cross hc hs h).mpr h'
    rw [hr] at this
    exact Except.ok.inj this
  have hY : (∃ e ∈ c.edgeList, s.pts ⊆ e.pts) → r = .component := fun h' => by
    have := (C66_component hc hs h).mpr h'
    rw [hr] at this
    exact Except.ok.inj this
  obtain ⟨d1, d2⟩ := C66_disjoint_within hc hs h
  have hW : s.pts ⊆ c.interior → r = .within := fun h' => by
    have := d2.mpr h'
    rw [hr] at this
    exact Except.ok.inj this
  have hD : s.pts ⊆ c.exterior → r = .disjoint := fun h' => by
    have := d1.mpr h'
    rw [hr] at this
    exact Except.ok.inj this
  rcases segmentInRegion_cases hc hs h hr with ⟨rfl, h'⟩ | ⟨rfl, h'⟩ | ⟨h0, h'⟩ | ⟨hne, hnX, hnsub, hr2, c1, c2, c3, c4⟩
  · exact only ⟨hX, hY, hW, hD, fun hn => absurd h' hn⟩ (.inl h')
  · exact only ⟨hX, hY, hW, hD, fun _ hn => absurd h' hn⟩ (.inr (.inl h'))
  · refine only ⟨hX, hY, hW, hD, fun _ _ hn => absurd h0 hn.ne_empty⟩ ?_
    rcases h' with rfl | rfl
    · exact .inr (.inr (.inr (.inl (d1.mp hr))))
    · exact .inr (.inr (.inl (d2.mp hr)))
  refine only ⟨hX, hY, hW, hD, fun _ _ _ => ?_⟩ (.inr (.inr (.inr (.inr hne))))
  have onI : ∀ {x : Point K}, x ∈ c.interior → x ∈ c.exterior → False := fun h1 h2 => Contour.not_both h1 h2
  by_cases s3 : s.start ∈ c.pts
  swap
  · rcases Contour.cover s3 with hi | hi
    · refine ⟨?_, fun _ => c2 hi⟩
      rintro (h' | ⟨h', -⟩)
      · exact (onI hi h').elim
      · exact absurd h' s3
    · exact ⟨fun _ => c1 hi, fun hn => absurd (.inl hi) hn⟩
  have s4 : s.start ∉ c.exterior := fun h' => h'.1 s3
  by_cases f3 : s.finish ∈ c.pts
  swap
  · rcases Contour.cover f3 with hi | hi
    · refine ⟨?_, fun _ => c4 s3 hi⟩
      rintro (h' | ⟨-, h' | ⟨h', -⟩⟩)
      · exact absurd h' s4
      · exact (onI hi h').elim
      · exact absurd h' f3
    · exact ⟨fun _ => c3 s3 hi, fun hn => absurd (.inr ⟨s3, .inl hi⟩) hn⟩
  have f4 : s.finish ∉ c.exterior := fun h' => h'.1 f3
  have hO : c.SeemsOutside s ↔
      c.EndSeems s.finish s.start ∨ c.StartSeems s.start s.finish := by
    unfold Contour.SeemsOutside
    simp only [s3, s4, f3, f4, true_and, false_or]
  rw [hO]
  obtain ⟨i, e, hi, he, hpe, hfirst⟩ := locateLoop_first hc s.start c.edgeList 0 false s3
  obtain ⟨j, f, hj, hf, hpf, hfirst'⟩ := locateLoop_first hc s.finish c.edgeList 0 false f3
  have hi : region.locatePointIndexed c s.start context = (some (i : Int), .boundary) := by
    unfold region.locatePointIndexed
    rw [hc.contourSegments]
    simpa using hi
  have hj : region.locatePointIndexed c s.finish context = (some (j : Int), .boundary) := by
    unfold region.locatePointIndexed
    rw [hc.contourSegments]
    simpa using hj
  obtain ⟨p, v, q, hl, hn⟩ := h.leastCorner
  have t1 := touchesAtStart_all hc h hl hn he hpe hfirst hs
  have t2 := touchesAtEnd_all hc h hl hn hf hpf hfirst' (Ne.symm hs)
  obtain ⟨b, hb⟩ := touchesAtStart_total context (context.angleOrientation p v q) h.three he s.start s.finish
  obtain ⟨b', hb'⟩ := touchesAtEnd_total context (context.angleOrientation p v q) h.three hf s.start s.finish
  rw [← t1, ← t2, hb, hb']
  obtain ⟨r', hr', hrel⟩ := region.relateSegmentToContour_spec hc hs h
  have hr'' : r' = .touch ∨ r' = .overlap := by
    cases r' <;> simp only [RegionContourRel] at hrel
    case disjoint => exact absurd hrel hne.ne_empty
    case touch => exact .inl rfl
    case overlap => exact .inr rfl
    case cross => exact absurd hrel hnX
    case component => exact absurd hrel hnsub
  have e1 : ¬ (r' = .cross ∨ r' = .component) := by rcases hr'' with rfl | rfl <;> simp
  have e2 : r' ≠ .disjoint := by rcases hr'' with rfl | rfl <;> simp
  unfold planar.segmentInRegion region.relateSegment at hr
  simp only [hr', hi, hj, bind, Except.bind, pure, Except.pure, reduceCtorEq, if_false,
    contour.orientation_eq context h.nodup hl, hb, hb', e1, e2] at hr
  cases b <;> cases b' <;> simp at hr ⊢ <;> exact hr.symm

/-- C83: the answer is right unless the segment has inner and outer points although it does not cross edges, or it is a part
of the contour but not of a single edge, or it touches the region but does not look like that, or it is enclosed but looks
as if it touched. -/
theorem C83_right_iff {context : Context K} (hc : context.Exact) {s : Segment K} (hs : s.Nondegenerate)
    {c : Contour K} (h : c.Simple) :
    ∃ r, planar.segmentInRegion s c context = .ok r ∧ (SegmentRegionRel s c r ↔
      ((s.pts ∩ c.interior).Nonempty → (s.pts ∩ c.exterior).Nonempty →
        (∃ e ∈ c.edgeList, ∃ p, s.pts ∩ e.pts = {p} ∧ ¬ s.IsEndpoint p ∧ ¬ e.IsEndpoint p) ∨
          ∃ a w b, ⟨a, w⟩ ∈ c.edgeList ∧ ⟨w, b⟩ ∈ c.edgeList ∧ w ∈ s.pts ∧ ¬ s.IsEndpoint w ∧
            cross s.start s.finish a * cross s.start s.finish b < 0) ∧
      (s.pts ⊆ c.pts → ∃ e ∈ c.edgeList, s.pts ⊆ e.pts) ∧
      (s.pts ∩ c.interior = ∅ → (s.pts ∩ c.exterior).Nonempty → (s.pts ∩ c.pts).Nonempty →
        c.SeemsOutside s) ∧
      (s.pts ∩ c.exterior = ∅ → (s.pts ∩ c.interior).Nonempty → (s.pts ∩ c.pts).Nonempty →
        ¬ c.SeemsOutside s)) := by
  change ∃ r, _ ∧ (_ ↔ (_ → _ → CrossesEdges c s) ∧ _)
  obtain ⟨r, hr, ha⟩ := C83_segment_in_region hc hs h
  refine ⟨r, hr, ?_⟩
  obtain ⟨a1, a2, a3, a4, a5⟩ := (ha r).mpr rfl
  change CrossesEdges c s → _ at a1
  change ¬ CrossesEdges c s → _ at a5
  have kX : CrossesEdges c s → (s.pts ∩ c.interior).Nonempty ∧ (s.pts ∩ c.exterior).Nonempty :=
    h.crosses_edges hs
  have kY : (∃ e ∈ c.edgeList, s.pts ⊆ e.pts) → s.pts ⊆ c.pts := fun ⟨e, he, hse⟩ =>
    hse.trans (subset_segsPts he)
  have kB : ¬ (s.pts ∩ c.pts).Nonempty → s.pts ⊆ c.interior ∨ s.pts ⊆ c.exterior := fun hno => by
    obtain ⟨d1, d2⟩ := C66_disjoint_within hc hs h
    rcases segmentInRegion_cases hc hs h hr with ⟨-, h'⟩ | ⟨-, h'⟩ | ⟨h0, h'⟩ | ⟨hne, -⟩
    · refine absurd ?_ hno
      rcases h' with ⟨e, he, p, hp, -⟩ | ⟨p, v, q, h1, -, h2, -⟩
      · have : p ∈ s.pts ∩ e.pts := hp ▸ rfl
        exact ⟨p, this.1, e, he, this.2⟩
      · exact ⟨v, h2, _, h1, finish_mem _⟩
    · exact absurd ⟨_, start_mem s, kY h' (start_mem s)⟩ hno
    · rcases h' with rfl | rfl
      · exact .inr (d1.mp hr)
      · exact .inl (d2.mp hr)
    · exact absurd hne hno
  have n1 := c.interior_pts
  have n2 := c.interior_exterior
  have n3 := c.exterior_pts
  have nS : s.start ∈ s.pts := start_mem s
  have cov : ∀ x, x ∉ c.pts → x ∈ c.interior ∨ x ∈ c.exterior := fun x => Contour.cover
  generalize CrossesEdges c s = X at *
  generalize (∃ e ∈ c.edgeList, s.pts ⊆ e.pts) = Y at *
  generalize c.SeemsOutside s = O at *
  unfold SegmentRegionRel
  generalize c.interior = I at *
  generalize c.exterior = E at *
  generalize c.pts = B at *
  generalize s.pts = S at *
  generalize s.start = x₀ at *
  clear ha hr hs h
  by_cases hX : X
  · obtain rfl := a1 hX
    have := kX hX
    refine ⟨fun _ => ⟨fun _ _ => hX, fun h' => ?_, fun h' => absurd h' this.1.ne_empty, fun h' => absurd h' this.2.ne_empty⟩,
      fun _ => this⟩
    obtain ⟨x, x1, x2⟩ := this.1
    exact absurd ⟨x2, h' x1⟩ (Set.eq_empty_iff_forall_notMem.mp n1 x)
  by_cases hY : Y
  · obtain rfl := a2 hY
    have := kY hY
    refine ⟨fun _ => ⟨fun ⟨x, x1, x2⟩ => ?_, fun _ => hY, fun _ ⟨x, x1, x2⟩ => ?_, fun _ ⟨x, x1, x2⟩ => ?_⟩, fun _ => this⟩
    · exact absurd ⟨x2, this x1⟩ (Set.eq_empty_iff_forall_notMem.mp n1 x)
    · exact absurd ⟨this x1, x2⟩ (Set.eq_empty_iff_forall_notMem.mp n3 x)
    · exact absurd ⟨x2, this x1⟩ (Set.eq_empty_iff_forall_notMem.mp n1 x)
  by_cases hB : (S ∩ B).Nonempty
  · obtain ⟨b1, b2⟩ := a5 hX hY hB
    by_cases hO : O
    · obtain rfl := b1 hO
      constructor
      · rintro ⟨h1, h2, -⟩
        refine ⟨fun h' => absurd h1 h'.ne_empty, fun h' => ?_, fun _ _ _ => hO, fun h' => absurd h' h2.ne_empty⟩
        obtain ⟨x, x1, x2⟩ := h2
        exact absurd ⟨h' x1, x2⟩ (Set.eq_empty_iff_forall_notMem.mp n3 x)
      · rintro ⟨h1, h2, -, h4⟩
        have hI : S ∩ I = ∅ := by
          by_contra hI
          have hI := Set.nonempty_iff_ne_empty.mpr hI
          by_cases hE : (S ∩ E).Nonempty
          · exact hX (h1 hI hE)
          · exact h4 (Set.not_nonempty_iff_eq_empty.mp hE) hI hB hO
        refine ⟨hI, ?_, hB⟩
        by_contra hE
        refine hY (h2 fun x x1 => by_contra fun x2 => ?_)
        rcases cov x x2 with x3 | x3
        · exact Set.eq_empty_iff_forall_notMem.mp hI x ⟨x1, x3⟩
        · exact hE ⟨x, x1, x3⟩
    · obtain rfl := b2 hO
      constructor
      · rintro ⟨h1, h2, -⟩
        refine ⟨fun _ h' => absurd h1 h'.ne_empty, fun h' => ?_, fun h' => absurd h' h2.ne_empty, fun _ _ _ => hO⟩
        obtain ⟨x, x1, x2⟩ := h2
        exact absurd ⟨x2, h' x1⟩ (Set.eq_empty_iff_forall_notMem.mp n1 x)
      · rintro ⟨h1, h2, h3, -⟩
        have hE : S ∩ E = ∅ := by
          by_contra hE
          have hE := Set.nonempty_iff_ne_empty.mpr hE
          by_cases hI : (S ∩ I).Nonempty
          · exact hX (h1 hI hE)
          · exact hO (h3 (Set.not_nonempty_iff_eq_empty.mp hI) hE hB)
        refine ⟨hE, ?_, hB⟩
        by_contra hI
        refine hY (h2 fun x hx => ?_)
        by_contra hxB
        rcases cov x hxB with h' | h'
        · exact hI ⟨x, hx, h'⟩
        · exact Set.eq_empty_iff_forall_notMem.mp hE x ⟨hx, h'⟩
  · rcases kB hB with hI | hE
    · obtain rfl := a3 hI
      simp only [LinearCompoundRel, Set.subset_def, Set.eq_empty_iff_forall_notMem, Set.Nonempty,
        Set.mem_inter_iff] at *
      grind
    · obtain rfl := a4 hE
      simp only [LinearCompoundRel, Set.subset_def, Set.eq_empty_iff_forall_notMem, Set.Nonempty,
        Set.mem_inter_iff] at *
      grind

/-! ### Concrete cases -/

/-- A convex pentagon, clockwise. -/
def exampleTurned : Contour ℚ := ⟨[⟨0, 0⟩, ⟨-1, 3⟩, ⟨2, 5⟩, ⟨5, 3⟩, ⟨4, 0⟩]⟩

theorem exampleTurned_simple : exampleTurned.Simple := Contour.simple_of_check (by decide +kernel)

theorem exampleTurned_clockwise : exampleTurned.Clockwise :=
  ⟨⟨0, 0⟩, ⟨-1, 3⟩, ⟨2, 5⟩, ⟨0, [⟨5, 3⟩, ⟨4, 0⟩], by decide +kernel, by decide +kernel⟩, by decide +kernel⟩

/-- Not covered by C75: one of its diagonals looks as if it went outwards, since the first vertex is taken for the one
after the third one, and `TOUCH` is answered. -/
theorem C83_example :
    planar.segmentInRegion ⟨⟨2, 5⟩, ⟨4, 0⟩⟩ exampleTurned (reference.context : Context ℚ) = .ok .touch ∧
      exampleTurned.SeemsOutside ⟨⟨2, 5⟩, ⟨4, 0⟩⟩ := by
  refine ⟨by decide +kernel, .inr ⟨(C10_point_in_region_unique reference.context_exact _ exampleTurned .boundary).mp
    (by decide +kernel), .inr ⟨(C10_point_in_region_unique reference.context_exact _ exampleTurned .boundary).mp
      (by decide +kernel), .inr ⟨fun _ => ⟨⟨-1, 3⟩, ⟨0, 0⟩, ⟨2, by decide +kernel, by decide +kernel, by decide +kernel,
        by decide +kernel⟩, by decide +kernel, by decide +kernel⟩, fun h => ?_⟩⟩⟩⟩
  exact absurd ⟨exampleTurned_clockwise, by decide +kernel⟩ h

/-- That is wrong: the diagonal has inner points. -/
theorem C83_example_wrong : ¬ SegmentRegionRel ⟨⟨2, 5⟩, ⟨4, 0⟩⟩ exampleTurned .touch := by
  intro h
  refine Set.eq_empty_iff_forall_notMem.mp h.1 ⟨3, 5 / 2⟩ ⟨⟨1 / 2, by decide +kernel, by decide +kernel, ?_⟩, ?_⟩
  · decide +kernel
  · exact (C10_point_in_region_unique reference.context_exact _ exampleTurned .interior).mp (by decide +kernel)

/-- Another diagonal starts at the last vertex, for which nothing is ever found, and `ENCLOSED` is answered. -/
theorem C83_example_last :
    planar.segmentInRegion ⟨⟨4, 0⟩, ⟨-1, 3⟩⟩ exampleTurned (reference.context : Context ℚ) = .ok .enclosed ∧
      ¬ exampleTurned.StartSeems ⟨4, 0⟩ ⟨-1, 3⟩ := by
  refine ⟨by decide +kernel, fun h => ?_⟩
  obtain ⟨a, w, hm, -⟩ := h.1 ⟨exampleTurned_clockwise, by decide +kernel⟩
  exact misread_last exampleTurned_simple (by decide +kernel) hm


end Orient.Props
