import Verif.Lemmas.Transversal
import Verif.Lemmas.Contour
import Verif.Spec.Reference

/-! The contract `Context.Exact` can be met: the reference context meets it. -/

set_option linter.unusedSectionVars false

namespace Orient.reference

variable {K : Type} [Field K] [LinearOrder K] [IsStrictOrderedRing K]

open Segment

theorem angleOrientation_counterclockwise (v a b : Point K) :
    angleOrientation v a b = .counterclockwise ↔ 0 < cross v a b := by
  unfold angleOrientation
  split_ifs with h1 h2
  · simpa using h1
  · simp only [false_iff]; exact h1
  · simp only [false_iff]; exact h1

theorem angleOrientation_clockwise (v a b : Point K) :
    angleOrientation v a b = .clockwise ↔ cross v a b < 0 := by
  unfold angleOrientation
  split_ifs with h1 h2
  · simp only [false_iff]; exact not_lt.mpr (le_of_lt h1)
  · simpa using h2
  · simp only [false_iff]; exact h2

theorem segmentContainsPoint_iff (s : Segment K) (p : Point K) :
    segmentContainsPoint s p = true ↔ p ∈ s.pts := by
  unfold segmentContainsPoint
  simp only [Bool.and_eq_true, decide_eq_true_eq]
  constructor
  · rintro ⟨⟨⟨⟨hc, hx0⟩, hx1⟩, hy0⟩, hy1⟩
    rw [mem_pts_iff]
    refine ⟨hc, ?_⟩
    by_cases he : s.start = s.finish
    · rw [he, min_self] at hx0 hy0
      rw [he, max_self] at hx1 hy1
      have : p = s.finish := Point.ext (le_antisymm hx1 hx0) (le_antisymm hy1 hy0)
      simp [this, he]
    · obtain ⟨t, rfl⟩ := exists_lerp_of_cross_eq_zero he hc
      have key : 0 ≤ t ∧ t ≤ 1 := by
        simp only [lerp] at *
        by_cases hx : s.start.x = s.finish.x
        · have hy : s.start.y ≠ s.finish.y := fun hy => he (Point.ext hx hy)
          rcases lt_or_gt_of_ne hy with hy | hy
          · rw [min_eq_left hy.le] at hy0
            rw [max_eq_right hy.le] at hy1
            have : 0 < s.finish.y - s.start.y := sub_pos.mpr hy
            constructor <;> nlinarith
          · rw [min_eq_right hy.le] at hy0
            rw [max_eq_left hy.le] at hy1
            have : 0 < s.start.y - s.finish.y := sub_pos.mpr hy
            constructor <;> nlinarith
        · rcases lt_or_gt_of_ne hx with hy | hy
          · rw [min_eq_left hy.le] at hx0
            rw [max_eq_right hy.le] at hx1
            have : 0 < s.finish.x - s.start.x := sub_pos.mpr hy
            constructor <;> nlinarith
          · rw [min_eq_right hy.le] at hx0
            rw [max_eq_left hy.le] at hx1
            have : 0 < s.start.x - s.finish.x := sub_pos.mpr hy
            constructor <;> nlinarith
      exact ((mem_pts_iff s _).mp ⟨t, key.1, key.2, rfl⟩).2
  · rintro ⟨t, t0, t1, rfl⟩
    have hc := cross_lerp_self s.start s.finish t
    simp only [lerp] at *
    refine ⟨⟨⟨⟨hc, ?_⟩, ?_⟩, ?_⟩, ?_⟩
    · rcases le_total s.start.x s.finish.x with h | h
      · rw [min_eq_left h]; nlinarith
      · rw [min_eq_right h]; nlinarith
    · rcases le_total s.start.x s.finish.x with h | h
      · rw [max_eq_right h]; nlinarith
      · rw [max_eq_left h]; nlinarith
    · rcases le_total s.start.y s.finish.y with h | h
      · rw [min_eq_left h]; nlinarith
      · rw [min_eq_right h]; nlinarith
    · rcases le_total s.start.y s.finish.y with h | h
      · rw [max_eq_right h]; nlinarith
      · rw [max_eq_left h]; nlinarith

theorem collinearRelation_spec {t g : Segment K} (ht : t.Nondegenerate) (hg : g.Nondegenerate)
    (h : t.Collinear g) : SegmentsRel t g (collinearRelation t g) := by
  have hsub := h.subset_iff ht hg
  have hsup := h.superset_iff ht hg
  have heq := pts_eq_iff ht hg
  have hin := h.mem_inter_iff ht hg
  have htl := lo_lt_hi ht
  have hgl := lo_lt_hi hg
  unfold collinearRelation
  simp only
  change SegmentsRel t g (if t.lo = g.lo ∧ t.hi = g.hi then _ else if g.lo ≤ t.lo ∧ t.hi ≤ g.hi then _
    else if t.lo ≤ g.lo ∧ g.hi ≤ t.hi then _ else if max t.lo g.lo < min t.hi g.hi then _
    else if max t.lo g.lo = min t.hi g.hi then _ else _)
  have cmax : cross t.start t.finish (max t.lo g.lo) = 0 := by
    rcases max_choice t.lo g.lo with e | e <;> rw [e]
    · exact cross_lo (collinear_self t)
    · exact cross_lo h
  have cmin : cross t.start t.finish (min t.hi g.hi) = 0 := by
    rcases min_choice t.hi g.hi with e | e <;> rw [e]
    · exact cross_hi (collinear_self t)
    · exact cross_hi h
  split_ifs with h1 h2 h3 h4 h5
  · exact heq.mpr h1
  · refine ⟨hsub.mpr h2, fun hn => h1 ?_⟩
    exact heq.mp (Set.Subset.antisymm (hsub.mpr h2) hn)
  · refine ⟨hsup.mpr h3, fun hn => h1 ?_⟩
    exact heq.mp (Set.Subset.antisymm hn (hsup.mpr h3))
  · refine ⟨fun hn => h2 (hsub.mp hn), fun hn => h3 (hsup.mp hn), ?_⟩
    exact ⟨_, (hin _).mpr ⟨cmax, le_rfl, h4.le⟩, _, (hin _).mpr ⟨cmin, h4.le, le_rfl⟩, h4.ne⟩
  · refine ⟨max t.lo g.lo, ?_, ?_⟩
    · ext p
      rw [hin, Set.mem_singleton_iff, ← h5]
      constructor
      · rintro ⟨-, ha, hb⟩; exact le_antisymm hb ha
      · rintro rfl; exact ⟨cmax, le_rfl, le_rfl⟩
    · rcases max_choice t.lo g.lo with e | e <;> rw [e]
      · left; exact (isEndpoint_iff _ _).mpr (Or.inl rfl)
      · right; exact (isEndpoint_iff _ _).mpr (Or.inl rfl)
  · change _ = ∅
    rw [Set.eq_empty_iff_forall_notMem]
    intro p hp
    rw [hin] at hp
    have := hp.2.1.trans hp.2.2
    rcases this.lt_or_eq with h | h
    · exact h4 h
    · exact h5 h

theorem transversalRelation_spec {t g : Segment K} (ht : t.Nondegenerate) (hg : g.Nondegenerate)
    (h : ¬ t.Collinear g) : SegmentsRel t g (transversalRelation t g) := by
  have h' := not_collinear_symm ht hg h
  unfold transversalRelation
  split_ifs with h1 h2
  · obtain ⟨s, u, s0, s1, u0, u1, e, es, eu⟩ := exists_mem_inter h h1.1.le h1.2.le
    refine ⟨lerp t.start t.finish s, inter_eq_singleton hg h ⟨s, s0, s1, rfl⟩ ⟨u, u0, u1, e⟩, ?_, ?_⟩
    · intro hp
      have : cross g.start g.finish (lerp t.start t.finish s) = 0 := by rw [cross_lerp]; exact es
      rcases hp with hp | hp <;> rw [hp] at this <;> rw [this] at h1 <;> simp at h1
    · intro hp
      have : cross t.start t.finish (lerp g.start g.finish u) = 0 := by rw [cross_lerp]; exact eu
      rw [e] at hp
      rcases hp with hp | hp <;> rw [hp] at this <;> rw [this] at h1 <;> simp at h1
  · simp only [Bool.or_eq_true, segmentContainsPoint_iff] at h2
    rcases h2 with ((h2 | h2) | h2) | h2
    · exact ⟨_, inter_eq_singleton hg h h2 g.start_mem, Or.inr (Or.inl rfl)⟩
    · exact ⟨_, inter_eq_singleton hg h h2 g.finish_mem, Or.inr (Or.inr rfl)⟩
    · exact ⟨_, inter_eq_singleton hg h t.start_mem h2, Or.inl (Or.inl rfl)⟩
    · exact ⟨_, inter_eq_singleton hg h t.finish_mem h2, Or.inl (Or.inr rfl)⟩
  · change _ = ∅
    simp only [Bool.or_eq_true, segmentContainsPoint_iff, not_or] at h2
    rw [Set.eq_empty_iff_forall_notMem]
    rintro p ⟨hp, hp'⟩
    by_cases e1 : t.IsEndpoint p
    · rcases e1 with rfl | rfl
      · exact h2.1.2 hp'
      · exact h2.2 hp'
    by_cases e2 : g.IsEndpoint p
    · rcases e2 with rfl | rfl
      · exact h2.1.1.1 hp
      · exact h2.1.1.2 hp
    exact h1 ⟨strict_signs_of_mem_inter h hp hp' e2, strict_signs_of_mem_inter h' hp' hp e1⟩

theorem segmentsRelation_spec {t g : Segment K} (ht : t.Nondegenerate) (hg : g.Nondegenerate) :
    SegmentsRel t g (segmentsRelation t g) := by
  unfold segmentsRelation
  split_ifs with h
  · exact collinearRelation_spec ht hg h
  · exact transversalRelation_spec ht hg h

/-- The classes exclude each other where a single common point is concerned. -/
theorem inter_singleton_of_rel {t g : Segment K} {r : Relation} (h : SegmentsRel t g r)
    (hr : r = .touch ∨ r = .cross) : ∃ p, t.pts ∩ g.pts = {p} := by
  rcases hr with rfl | rfl
  · obtain ⟨p, hp, -⟩ := h; exact ⟨p, hp⟩
  · obtain ⟨p, hp, -⟩ := h; exact ⟨p, hp⟩

theorem segmentsIntersection_spec {t g : Segment K} (ht : t.Nondegenerate) (hg : g.Nondegenerate)
    (hr : segmentsRelation t g = .touch ∨ segmentsRelation t g = .cross) :
    segmentsIntersection t g ∈ t.pts ∩ g.pts := by
  obtain ⟨p, hp⟩ := inter_singleton_of_rel (segmentsRelation_spec ht hg) hr
  have hp' : p ∈ t.pts ∩ g.pts := hp ▸ Set.mem_singleton p
  unfold segmentsIntersection
  split_ifs with h
  · change max t.lo g.lo ∈ _
    have h : t.Collinear g := h
    rw [h.mem_inter_iff ht hg] at hp' ⊢
    refine ⟨?_, le_rfl, hp'.2.1.trans hp'.2.2⟩
    rcases max_choice t.lo g.lo with e | e <;> rw [e]
    · exact cross_lo (collinear_self t)
    · exact cross_lo h
  · have h1 := signs_of_mem_inter hp'.1 hp'.2
    have h2 := signs_of_mem_inter hp'.2 hp'.1
    obtain ⟨s, u, s0, s1, u0, u1, e, es, eu⟩ := exists_mem_inter h h1 h2
    have hd := cross_diff t.start t.finish g.start g.finish
    have hD : cross t.start t.finish g.finish - cross t.start t.finish g.start ≠ 0 := by
      intro hD
      apply h
      have e : cross t.start t.finish g.finish = cross t.start t.finish g.start := sub_eq_zero.mp hD
      rw [e] at h1
      have : cross t.start t.finish g.start = 0 := by
        nlinarith [mul_self_nonneg (cross t.start t.finish g.start)]
      exact ⟨this, e.trans this⟩
    have hs : s = cross g.start g.finish t.start /
        (cross t.start t.finish g.finish - cross t.start t.finish g.start) := by
      rw [hd] at es
      rw [eq_div_iff hD]; linear_combination -es
    have key : ∀ l : K, l = s → (⟨t.start.x + l * (t.finish.x - t.start.x),
        t.start.y + l * (t.finish.y - t.start.y)⟩ : Point K) ∈ t.pts ∩ g.pts := by
      rintro l rfl
      exact ⟨⟨l, s0, s1, rfl⟩, ⟨u, u0, u1, e⟩⟩
    apply key
    rw [hs]
    congr 1
    · simp only [cross]; ring
    · simp only [cross]; ring

/-! ### bounding boxes -/

/-- One step of the fold. -/
def extend (b : Box K) (q : Point K) : Box K :=
  ⟨min b.minX q.x, max b.maxX q.x, min b.minY q.y, max b.maxY q.y⟩

theorem extend_spec {b : Box K} {S : Set (Point K)} (h : IsBoxOf b S) (q : Point K) :
    IsBoxOf (extend b q) (insert q S) where
  minX_le p hp := by
    rcases hp with rfl | hp
    · exact min_le_right _ _
    · exact (min_le_left _ _).trans (h.minX_le p hp)
  le_maxX p hp := by
    rcases hp with rfl | hp
    · exact le_max_right _ _
    · exact (h.le_maxX p hp).trans (le_max_left _ _)
  minY_le p hp := by
    rcases hp with rfl | hp
    · exact min_le_right _ _
    · exact (min_le_left _ _).trans (h.minY_le p hp)
  le_maxY p hp := by
    rcases hp with rfl | hp
    · exact le_max_right _ _
    · exact (h.le_maxY p hp).trans (le_max_left _ _)
  minX_mem := by
    rcases min_choice b.minX q.x with e | e
    · obtain ⟨p, hp, hpe⟩ := h.minX_mem
      exact ⟨p, Set.mem_insert_of_mem _ hp, by simp [extend, e, hpe]⟩
    · exact ⟨q, Set.mem_insert _ _, by simp [extend, e]⟩
  maxX_mem := by
    rcases max_choice b.maxX q.x with e | e
    · obtain ⟨p, hp, hpe⟩ := h.maxX_mem
      exact ⟨p, Set.mem_insert_of_mem _ hp, by simp [extend, e, hpe]⟩
    · exact ⟨q, Set.mem_insert _ _, by simp [extend, e]⟩
  minY_mem := by
    rcases min_choice b.minY q.y with e | e
    · obtain ⟨p, hp, hpe⟩ := h.minY_mem
      exact ⟨p, Set.mem_insert_of_mem _ hp, by simp [extend, e, hpe]⟩
    · exact ⟨q, Set.mem_insert _ _, by simp [extend, e]⟩
  maxY_mem := by
    rcases max_choice b.maxY q.y with e | e
    · obtain ⟨p, hp, hpe⟩ := h.maxY_mem
      exact ⟨p, Set.mem_insert_of_mem _ hp, by simp [extend, e, hpe]⟩
    · exact ⟨q, Set.mem_insert _ _, by simp [extend, e]⟩

theorem foldl_extend_spec (l : List (Point K)) : ∀ {b : Box K} {S : Set (Point K)}, IsBoxOf b S →
    IsBoxOf (l.foldl extend b) ({p | p ∈ l} ∪ S) := by
  induction l with
  | nil => intro b S h; simpa using h
  | cons q l ih =>
    intro b S h
    have := ih (extend_spec h q)
    simp only [List.foldl_cons]
    have e : ({p | p ∈ q :: l} ∪ S) = ({p | p ∈ l} ∪ insert q S) := by
      ext p; simp only [List.mem_cons, Set.mem_union, Set.mem_ofPred_eq, Set.mem_insert_iff]; tauto
    rw [e]; exact this

theorem pointsBox_spec {l : List (Point K)} (h : l ≠ []) : IsBoxOf (pointsBox l) {p | p ∈ l} := by
  cases l with
  | nil => exact absurd rfl h
  | cons p l =>
    have h0 : IsBoxOf (⟨p.x, p.x, p.y, p.y⟩ : Box K) {p} := by
      constructor <;> simp
    have := foldl_extend_spec l h0
    have e : {q | q ∈ p :: l} = ({q | q ∈ l} ∪ {p}) := by
      ext q; simp only [List.mem_cons, Set.mem_union, Set.mem_ofPred_eq, Set.mem_singleton_iff]; tauto
    rw [e]; exact this

theorem lerp_bounds {u v t : K} (t0 : 0 ≤ t) (t1 : t ≤ 1) :
    min u v ≤ u + t * (v - u) ∧ u + t * (v - u) ≤ max u v := by
  rcases le_total u v with h | h
  · rw [min_eq_left h, max_eq_right h]; constructor <;> nlinarith
  · rw [min_eq_right h, max_eq_left h]; constructor <;> nlinarith

/-- The box of the endpoints is the box of the segments. -/
theorem isBoxOf_of_segments {b : Box K} {S T : Set (Point K)} (h : IsBoxOf b S) (hST : S ⊆ T)
    (hT : ∀ p ∈ T, ∃ s : Segment K, s.start ∈ S ∧ s.finish ∈ S ∧ p ∈ s.pts) : IsBoxOf b T where
  minX_le p hp := by
    obtain ⟨s, h1, h2, t, t0, t1, rfl⟩ := hT p hp
    exact (le_min (h.minX_le _ h1) (h.minX_le _ h2)).trans (lerp_bounds t0 t1).1
  le_maxX p hp := by
    obtain ⟨s, h1, h2, t, t0, t1, rfl⟩ := hT p hp
    exact (lerp_bounds t0 t1).2.trans (max_le (h.le_maxX _ h1) (h.le_maxX _ h2))
  minY_le p hp := by
    obtain ⟨s, h1, h2, t, t0, t1, rfl⟩ := hT p hp
    exact (le_min (h.minY_le _ h1) (h.minY_le _ h2)).trans (lerp_bounds t0 t1).1
  le_maxY p hp := by
    obtain ⟨s, h1, h2, t, t0, t1, rfl⟩ := hT p hp
    exact (lerp_bounds t0 t1).2.trans (max_le (h.le_maxY _ h1) (h.le_maxY _ h2))
  minX_mem := by obtain ⟨p, hp, e⟩ := h.minX_mem; exact ⟨p, hST hp, e⟩
  maxX_mem := by obtain ⟨p, hp, e⟩ := h.maxX_mem; exact ⟨p, hST hp, e⟩
  minY_mem := by obtain ⟨p, hp, e⟩ := h.minY_mem; exact ⟨p, hST hp, e⟩
  maxY_mem := by obtain ⟨p, hp, e⟩ := h.maxY_mem; exact ⟨p, hST hp, e⟩

theorem mem_endpoints {l : List (Segment K)} {p : Point K} :
    p ∈ endpoints l ↔ ∃ s ∈ l, s.IsEndpoint p := by
  simp [endpoints, Segment.IsEndpoint]

theorem segmentsBox_spec {l : List (Segment K)} (h : l ≠ []) :
    IsBoxOf (pointsBox (endpoints l)) (segsPts l) := by
  obtain ⟨s, hs⟩ := List.exists_mem_of_ne_nil l h
  have hne : endpoints l ≠ [] :=
    List.ne_nil_of_mem (mem_endpoints.mpr ⟨s, hs, Or.inl rfl⟩)
  apply isBoxOf_of_segments (pointsBox_spec hne)
  · intro p hp
    obtain ⟨s, hs, hp⟩ := mem_endpoints.mp hp
    exact ⟨s, hs, hp.mem⟩
  · rintro p ⟨s, hs, hp⟩
    exact ⟨s, mem_endpoints.mpr ⟨s, hs, Or.inl rfl⟩, mem_endpoints.mpr ⟨s, hs, Or.inr rfl⟩, hp⟩

theorem contoursBox_spec {l : List (Contour K)} (h : l ≠ []) (hv : ∀ k ∈ l, k.vertices ≠ []) :
    IsBoxOf (pointsBox (l.flatMap Contour.vertices)) {p | ∃ k ∈ l, p ∈ k.pts} := by
  obtain ⟨k, hk⟩ := List.exists_mem_of_ne_nil l h
  obtain ⟨v, hv⟩ := List.exists_mem_of_ne_nil _ (hv k hk)
  have hne : l.flatMap Contour.vertices ≠ [] :=
    List.ne_nil_of_mem (List.mem_flatMap.mpr ⟨k, hk, hv⟩)
  apply isBoxOf_of_segments (pointsBox_spec hne)
  · intro p hp
    obtain ⟨k, hk, hp⟩ := List.mem_flatMap.mp hp
    exact ⟨k, hk, Contour.vertex_mem_pts hp⟩
  · rintro p ⟨k, hk, e, he, hp⟩
    obtain ⟨h1, h2⟩ := Contour.mem_vertices_of_mem_edgeList he
    exact ⟨e, List.mem_flatMap.mpr ⟨k, hk, h1⟩, List.mem_flatMap.mpr ⟨k, hk, h2⟩, hp⟩

theorem contourBox_spec {k : Contour K} (h : k.vertices ≠ []) :
    IsBoxOf (pointsBox k.vertices) k.pts := by
  simpa using contoursBox_spec (l := [k]) (by simp) (by simpa using h)

theorem edges_eq_edgeList (c : Contour K) :
    (contour.edges c.vertices).map (fun e => (⟨e.1, e.2⟩ : Segment K)) = c.edgeList := by
  obtain ⟨vs⟩ := c
  unfold contour.edges Contour.edgeList
  rcases List.eq_nil_or_concat vs with rfl | ⟨init, last, rfl⟩
  · simp
  · simp only [List.concat_eq_append, List.getLast?_append, List.getLast?_singleton, Option.some_or,
      List.length_append, List.length_singleton, Nat.add_sub_cancel, List.rotate_append_length_eq]
    have := List.zip_append (l₁ := last :: init) (r₁ := [last]) (l₂ := init ++ [last])
      (r₂ := []) (by simp)
    simp only [List.append_nil, List.zip_nil_right] at this
    rw [List.cons_append] at this
    rw [this]
    simp [List.zip, List.map_zipWith]

/-- The contract of a context can be met. -/
theorem context_exact : (context : Context K).Exact where
  counterclockwise := angleOrientation_counterclockwise
  clockwise := angleOrientation_clockwise
  contains := segmentContainsPoint_iff
  relation _ _ := segmentsRelation_spec
  intersection _ _ := segmentsIntersection_spec
  dotProduct _ _ _ _ := rfl
  pointsSquaredDistance _ _ := rfl
  contourSegments := edges_eq_edgeList
  segmentBox s := by
    have := segmentsBox_spec (l := [s]) (by simp)
    simpa [segsPts, context] using this
  segmentsBox _ := segmentsBox_spec
  contourBox _ := contourBox_spec
  contoursBox _ := contoursBox_spec
  polygonBox _ h := contourBox_spec h
  polygonsBox l h hv := by
    have := contoursBox_spec (l := l.map Polygon.border) (by simpa using h) (by simpa using hv)
    simpa [List.flatMap_map, context] using this

end Orient.reference
