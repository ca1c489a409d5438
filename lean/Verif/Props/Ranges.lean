import Verif.Props.SegmentInSegment

/-! C21: which answers a query can give at all. -/

set_option linter.unusedSectionVars false
set_option linter.unusedSimpArgs false
set_option linter.unusedTactic false

namespace Orient.Props

open processing eventsQueue

variable {K : Type} [Field K] [LinearOrder K]

/-- The relations between two linear geometries. -/
def linearLinear : List Relation :=
  [.disjoint, .touch, .cross, .overlap, .composite, .equal, .component]

/-- The relations of a linear geometry with a compound one. -/
def linearCompound : List Relation := [.disjoint, .touch, .cross, .component, .enclosed, .within]

/-- The relations between two compound geometries: all except `CROSS`. -/
def compoundCompound : List Relation :=
  [.disjoint, .touch, .overlap, .cover, .encloses, .composite, .equal, .component, .enclosed, .within]

/-- All answers (of a computation that may raise) are in the list. -/
def AnswersIn (l : List Relation) (x : Py Relation) : Prop := ∀ r, x = .ok r → r ∈ l

theorem AnswersIn.ok {l : List Relation} {r : Relation} (h : r ∈ l) : AnswersIn l (.ok r) := by
  intro r' h'; cases h'; exact h

theorem AnswersIn.pure {l : List Relation} {r : Relation} (h : r ∈ l) :
    AnswersIn l (Pure.pure r) := AnswersIn.ok h

theorem AnswersIn.error {l : List Relation} {e : PyError} : AnswersIn l (.error e) := by
  intro r' h'; cases h'

theorem AnswersIn.bind {l : List Relation} {α : Type} {x : Py α} {f : α → Py Relation}
    (h : ∀ a, x = .ok a → AnswersIn l (f a)) : AnswersIn l (x >>= f) := by
  cases x with
  | error e => exact AnswersIn.error
  | ok a => exact h a rfl

theorem AnswersIn.ite {l : List Relation} {c : Prop} [Decidable c] {x y : Py Relation}
    (hx : AnswersIn l x) (hy : AnswersIn l y) : AnswersIn l (if c then x else y) := by
  split
  · exact hx
  · exact hy

theorem openLinear_result (v : OpenLinear) : v.result ∈ linearLinear := by
  unfold OpenLinear.result linearLinear
  split_ifs <;> simp

theorem closedLinear_result (v : ClosedLinear) : v.result ∈ linearLinear := by
  unfold ClosedLinear.result linearLinear
  simp only []
  split_ifs <;> simp

theorem linearCompound_result (v : LinearCompound) : v.result ∈ linearCompound := by
  unfold LinearCompound.result linearCompound
  split_ifs <;> simp

theorem compound_result (v : Compound) : v.result ∈ compoundCompound := by
  unfold Compound.result compoundCompound
  split_ifs <;> simp

theorem runOpenLinear_answers (context : Context K) (s : State K) (x : K) :
    AnswersIn linearLinear (runOpenLinear context s x) :=
  AnswersIn.bind fun _ _ => AnswersIn.pure (openLinear_result _)

theorem runClosedLinear_answers (context : Context K) (s : State K) (x : K) :
    AnswersIn linearLinear (runClosedLinear context s x) :=
  AnswersIn.bind fun _ _ => AnswersIn.pure (closedLinear_result _)

theorem runLinearCompound_answers (context : Context K) (s : State K) (x : K) :
    AnswersIn linearCompound (runLinearCompound context s x) :=
  AnswersIn.ite (AnswersIn.ok (by simp [linearCompound]))
    (AnswersIn.bind fun _ _ => AnswersIn.pure (linearCompound_result _))

theorem runCompound_answers (context : Context K) (s : State K) (x : K) :
    AnswersIn compoundCompound (runCompound context s x) :=
  AnswersIn.ite (AnswersIn.ok (by simp [compoundCompound]))
    (AnswersIn.bind fun _ _ => AnswersIn.pure (compound_result _))

theorem contourLoop_answers (context : Context K) (segment : Segment K) (l : List (Segment K)) :
    ∀ (i : Int) (s : contour.LoopState K) (r : Relation),
      contour.loop context segment i l s = .inl r → r ∈ linearLinear := by
  induction l with
  | nil => intro i s r h; cases h
  | cons e l ih =>
    intro i s r h
    unfold contour.loop at h
    cases hs : contour.loopStep context segment i e s with
    | inl r' =>
      rw [hs] at h
      simp only [Sum.inl.injEq] at h
      subst h
      unfold contour.loopStep at hs
      simp only [] at hs
      split_ifs at hs <;> simp_all [linearLinear]
    | inr s' => rw [hs] at h; exact ih _ _ _ h

theorem contourRelateSegment_answers (context : Context K) (c : Contour K) (segment : Segment K) :
    AnswersIn linearLinear (contour.relateSegment c segment context) := by
  unfold contour.relateSegment
  split
  · rename_i r h
    exact AnswersIn.pure (contourLoop_answers _ _ _ _ _ _ h)
  · rename_i s h
    have key : ∀ b : Bool, AnswersIn linearLinear
        (Pure.pure (if b = true then (if s.hasNoTouch = true then Relation.disjoint else .touch)
          else .cross) : Py Relation) := by
      intro b
      apply AnswersIn.pure
      split_ifs <;> simp [linearLinear]
    simp only []
    split
    · refine AnswersIn.bind fun a _ => AnswersIn.bind fun b _ => ?_
      split
      · refine AnswersIn.bind fun d _ => ?_
        split
        · exact key _
        · exact key _
      · exact key _
    · exact key _

theorem regionLoop_answers (context : Context K) (segment : Segment K) (l : List (Segment K)) :
    ∀ (i : Int) (s : region.LoopState K) (r : Relation),
      region.loop context segment i l s = .inl r → r = .component ∨ r = .cross := by
  induction l with
  | nil => intro i s r h; cases h
  | cons e l ih =>
    intro i s r h
    unfold region.loop at h
    cases hs : region.loopStep context segment i e s with
    | inl r' =>
      rw [hs] at h
      simp only [Sum.inl.injEq] at h
      subst h
      unfold region.loopStep at hs
      simp only [] at hs
      cases hl : s.last <;> rw [hl] at hs <;> simp only [] at hs <;> split_ifs at hs <;> simp_all
    | inr s' => rw [hs] at h; exact ih _ _ _ h

theorem regionRelateSegment_answers (context : Context K) (c : Region K) (segment : Segment K) :
    AnswersIn linearCompound (region.relateSegment c segment context) := by
  unfold region.relateSegment
  refine AnswersIn.bind fun r _ => ?_
  by_cases hr : r = .cross ∨ r = .component
  · simp only [hr, if_true]
    rcases hr with rfl | rfl <;> exact AnswersIn.pure (by simp [linearCompound])
  · simp only [hr, if_false, pure_bind]
    repeat' first
      | exact AnswersIn.error
      | (apply AnswersIn.pure; first | (simp [linearCompound]; done) | (split_ifs <;> simp [linearCompound]; done))
      | (apply AnswersIn.bind; intros)
      | split

theorem multiregionSegments_answers (context : Context K) (m : Multiregion K)
    (l : Multisegment K) (b : Box K) :
    AnswersIn linearCompound (multiregion.relateMultisegmentBoxed m l b context) := by
  unfold multiregion.relateMultisegmentBoxed
  refine AnswersIn.bind fun r _ => ?_
  obtain ⟨_, r⟩ := r
  cases r with
  | none => exact AnswersIn.pure (by simp [linearCompound])
  | some r => exact runLinearCompound_answers _ _ _

theorem multiregionContour_answers (context : Context K) (m : Multiregion K)
    (c : Contour K) (b : Box K) :
    AnswersIn linearCompound (multiregion.relateContourBoxed m c b context) := by
  unfold multiregion.relateContourBoxed
  refine AnswersIn.bind fun r _ => ?_
  obtain ⟨_, r⟩ := r
  cases r with
  | none => exact AnswersIn.pure (by simp [linearCompound])
  | some r => exact runLinearCompound_answers _ _ _

theorem regionContour_answers (context : Context K) (r : Region K) (c : Contour K) (b : Box K) :
    AnswersIn linearCompound (region.relateContourBoxed r c b context) := by
  unfold region.relateContourBoxed
  try simp only []
  refine AnswersIn.ite (AnswersIn.pure (by simp [linearCompound])) ?_
  try simp only [pure_bind]
  refine AnswersIn.bind fun e _ => ?_
  refine AnswersIn.ite (AnswersIn.pure (by simp [linearCompound])) ?_
  try simp only [pure_bind]
  exact AnswersIn.bind fun _ _ => runLinearCompound_answers _ _ _

theorem polygonSegment_answers (context : Context K) (g : Polygon K) (s : Segment K) :
    AnswersIn linearCompound (polygon.relateSegment g s context) := by
  unfold polygon.relateSegment
  refine AnswersIn.bind fun r hr => ?_
  have hr := regionRelateSegment_answers _ _ _ _ hr
  refine AnswersIn.ite ?_ (AnswersIn.pure hr)
  refine AnswersIn.bind fun q hq => ?_
  have hq := multiregionSegments_answers _ _ _ _ _ hq
  apply AnswersIn.pure
  cases q <;> simp_all [linearCompound]

theorem polygonContour_answers (context : Context K) (g : Polygon K) (c : Contour K) :
    AnswersIn linearCompound (polygon.relateContour g c context) := by
  unfold polygon.relateContour
  refine AnswersIn.bind fun r hr => ?_
  have hr := regionContour_answers _ _ _ _ _ hr
  refine AnswersIn.ite ?_ (AnswersIn.pure hr)
  refine AnswersIn.bind fun q hq => ?_
  apply AnswersIn.pure
  cases q <;> simp_all [linearCompound]

theorem regionRegion_answers (context : Context K) (r c : Region K) (b d : Box K) :
    AnswersIn compoundCompound (region.relateRegionBoxed r c b d context) := by
  unfold region.relateRegionBoxed
  refine AnswersIn.ite (AnswersIn.pure (by simp [compoundCompound])) ?_
  try simp only [pure_bind]
  refine AnswersIn.bind fun e _ => ?_
  refine AnswersIn.ite (AnswersIn.pure (by simp [compoundCompound])) ?_
  try simp only [pure_bind]
  exact AnswersIn.bind fun _ _ => AnswersIn.bind fun _ _ => runCompound_answers _ _ _

theorem correctSkipped_mem (b : Bool) {r : Relation} (h : r ∈ compoundCompound) :
    correctSkipped b r ∈ compoundCompound := by
  cases b <;> cases r <;> simp_all [correctSkipped, compoundCompound]

theorem multiregionRegion_answers (context : Context K) (m : Multiregion K) (r : Region K)
    (b : Box K) : AnswersIn compoundCompound (multiregion.relateRegionBoxed m r b context) := by
  unfold multiregion.relateRegionBoxed
  refine AnswersIn.bind fun r _ => ?_
  obtain ⟨_, r⟩ := r
  cases r with
  | none => exact AnswersIn.pure (by simp [compoundCompound])
  | some r => exact AnswersIn.bind fun q hq =>
      AnswersIn.pure (correctSkipped_mem _ (runCompound_answers _ _ _ _ hq))

theorem multiregionMultiregion_answers (context : Context K) (m n : Multiregion K) :
    AnswersIn compoundCompound (multiregion.relateMultiregion m n context) := by
  unfold multiregion.relateMultiregion
  try simp only []
  refine AnswersIn.ite (AnswersIn.pure (by simp [compoundCompound])) ?_
  try simp only [pure_bind]
  exact AnswersIn.bind fun _ _ => AnswersIn.bind fun _ _ => runCompound_answers _ _ _

theorem polygonRegion_answers (context : Context K) (g : Polygon K) (r : Region K) :
    AnswersIn compoundCompound (polygon.relateRegion g r context) := by
  unfold polygon.relateRegion
  refine AnswersIn.bind fun r hr => ?_
  have hr := regionRegion_answers _ _ _ _ _ _ hr
  cases r <;> simp only [] <;>
    first
    | exact AnswersIn.pure hr
    | (apply AnswersIn.pure; split_ifs <;> simp_all [compoundCompound]; done)
    | (refine AnswersIn.bind fun q hq => ?_
       apply AnswersIn.pure
       cases q <;> simp_all [compoundCompound])

theorem multiregionLoop_answers (context : Context K) (border : Contour K) (b : Box K)
    (m : List (Region K)) : ∀ t l r,
    polygon.relateMultiregionLoop border b context m t l = .ok (.inl r) → r ∈ compoundCompound := by
  induction m with
  | nil => intro t l r h; simp [polygon.relateMultiregionLoop] at h
  | cons a m ih =>
    intro t l r h
    unfold polygon.relateMultiregionLoop at h
    cases hq : region.relateRegionBoxed border a b (context.contourBox a) context with
    | error e => rw [hq] at h; cases h
    | ok q =>
      rw [hq] at h
      have hm := regionRegion_answers _ _ _ _ _ _ hq
      cases q <;> simp only [bind, Except.bind, pure, Except.pure] at h <;>
        first
        | exact ih _ _ _ h
        | (simp only [Except.ok.injEq, Sum.inl.injEq] at h; subst h; simp [compoundCompound]; done)

theorem holesLoop_answers (context : Context K) (border : Contour K) (b : Box K)
    (m : List (Region K)) : ∀ t l r,
    polygon.holesLoop border b context m t l = .ok (.inl r) → r ∈ compoundCompound := by
  induction m with
  | nil => intro t l r h; simp [polygon.holesLoop] at h
  | cons a m ih =>
    intro t l r h
    unfold polygon.holesLoop at h
    cases hq : region.relateRegionBoxed border a b (context.contourBox a) context with
    | error e => rw [hq] at h; cases h
    | ok q =>
      rw [hq] at h
      cases q <;> simp only [bind, Except.bind, pure, Except.pure] at h <;>
        first
        | exact ih _ _ _ h
        | (simp only [Except.ok.injEq, Sum.inl.injEq] at h; subst h; simp [compoundCompound]; done)

theorem complement_mem {r : Relation} (h : r ∈ compoundCompound) :
    r.complement ∈ compoundCompound := by
  cases r <;> simp_all [compoundCompound, Relation.complement]

theorem polygonMultiregion_answers (context : Context K) (g : Polygon K) (m : Multiregion K) :
    AnswersIn compoundCompound (polygon.relateMultiregion g m context) := by
  unfold polygon.relateMultiregion
  simp only []
  split
  · exact AnswersIn.bind fun q hq => AnswersIn.pure
      (complement_mem (multiregionRegion_answers _ _ _ _ _ hq))
  · refine AnswersIn.bind fun r hr => ?_
    cases r with
    | inl r => exact AnswersIn.pure (multiregionLoop_answers _ _ _ _ _ _ _ hr)
    | inr r =>
      simp only []
      split
      · refine AnswersIn.bind fun q hq => AnswersIn.pure ?_
        cases q <;> simp only [] <;> (try split_ifs) <;> simp [compoundCompound]
      · apply AnswersIn.pure; split_ifs <;> simp [compoundCompound]

theorem polygonPolygon_answers (context : Context K) (g t : Polygon K) :
    AnswersIn compoundCompound (polygon.relatePolygon g t context) := by
  unfold polygon.relatePolygon
  refine AnswersIn.bind fun r hr => ?_
  have hr := regionRegion_answers _ _ _ _ _ _ hr
  cases r <;> simp only [] <;>
    (repeat' first
      | exact AnswersIn.pure hr
      | (refine AnswersIn.pure ?_; assumption)
      | (refine AnswersIn.pure ?_; split_ifs <;> simp_all [compoundCompound]; done)
      | (refine AnswersIn.pure ?_; split <;> (try split_ifs) <;> simp_all [compoundCompound]; done)
      | (refine AnswersIn.pure ?_; exact holesLoop_answers _ _ _ _ _ _ _ (by assumption))
      | (refine AnswersIn.bind fun q hq => ?_)
      | split)

theorem multipolygonSegments_answers (context : Context K) (m : Multipolygon K)
    (l : Multisegment K) :
    AnswersIn linearCompound (multipolygon.relateMultisegment m l context) := by
  unfold multipolygon.relateMultisegment
  refine AnswersIn.bind fun r _ => ?_
  obtain ⟨_, r⟩ := r
  cases r with
  | none => exact AnswersIn.pure (by simp [linearCompound])
  | some r => exact runLinearCompound_answers _ _ _

theorem multipolygonContour_answers (context : Context K) (m : Multipolygon K)
    (c : Contour K) :
    AnswersIn linearCompound (multipolygon.relateContour m c context) := by
  unfold multipolygon.relateContour
  refine AnswersIn.bind fun r _ => ?_
  obtain ⟨_, r⟩ := r
  cases r with
  | none => exact AnswersIn.pure (by simp [linearCompound])
  | some r => exact runLinearCompound_answers _ _ _

/-- C21, linear geometries in linear geometries. -/
theorem C21_linear_linear [IsStrictOrderedRing K] {context : Context K} (hc : context.Exact)
    (s s' : Segment K) (hs : s.Nondegenerate) (hs' : s'.Nondegenerate)
    (m m' : Multisegment K) (c c' : Contour K) :
    planar.segmentInSegment s s' context ∈ linearLinear ∧
    planar.segmentInMultisegment s m context ∈ linearLinear ∧
    AnswersIn linearLinear (planar.multisegmentInMultisegment m m' context) ∧
    AnswersIn linearLinear (planar.segmentInContour s c context) ∧
    AnswersIn linearLinear (planar.multisegmentInContour m c context) ∧
    AnswersIn linearLinear (planar.contourInContour c c' context) := by
  refine ⟨?_, ?_, ?_, contourRelateSegment_answers _ _ _, ?_, ?_⟩
  · have := hc.relation s s' hs hs'
    unfold planar.segmentInSegment segment.relateSegment
    cases h : context.segmentsRelation s s' <;> rw [h] at this <;>
      simp_all [linearLinear, SegmentsRel]
  · unfold planar.segmentInMultisegment multisegment.relateSegment
    split
    · simp [linearLinear]
    · unfold multisegment.conclude
      split
      · split_ifs <;> simp [linearLinear]
      · split
        · simp only []
          repeat' split
          all_goals simp [linearLinear]
        · repeat' split
          all_goals simp [linearLinear]
  · unfold planar.multisegmentInMultisegment multisegment.relateMultisegment
    exact AnswersIn.ite (AnswersIn.ok (by simp [linearLinear])) (runOpenLinear_answers _ _ _)
  · unfold planar.multisegmentInContour contour.relateMultisegment
    exact AnswersIn.ite (AnswersIn.ok (by simp [linearLinear])) (runOpenLinear_answers _ _ _)
  · unfold planar.contourInContour contour.relateContour
    try simp only []
    refine AnswersIn.ite (AnswersIn.pure (by simp [linearLinear])) ?_
    try simp only [pure_bind]
    refine AnswersIn.bind fun e _ => ?_
    refine AnswersIn.ite (AnswersIn.pure (by simp [linearLinear])) ?_
    try simp only [pure_bind]
    exact AnswersIn.bind fun _ _ => AnswersIn.bind fun _ _ => runClosedLinear_answers _ _ _

/-- C21, linear geometries in compound geometries. -/
theorem C21_linear_compound (context : Context K) (s : Segment K) (m : Multisegment K)
    (c : Contour K) (r : Region K) (n : Multiregion K) (g : Polygon K) (h : Multipolygon K) :
    AnswersIn linearCompound (planar.segmentInRegion s r context) ∧
    AnswersIn linearCompound (planar.multisegmentInRegion m r context) ∧
    AnswersIn linearCompound (planar.contourInRegion c r context) ∧
    AnswersIn linearCompound (planar.segmentInMultiregion s n context) ∧
    AnswersIn linearCompound (planar.multisegmentInMultiregion m n context) ∧
    AnswersIn linearCompound (planar.contourInMultiregion c n context) ∧
    AnswersIn linearCompound (planar.segmentInPolygon s g context) ∧
    AnswersIn linearCompound (planar.multisegmentInPolygon m g context) ∧
    AnswersIn linearCompound (planar.contourInPolygon c g context) ∧
    AnswersIn linearCompound (planar.segmentInMultipolygon s h context) ∧
    AnswersIn linearCompound (planar.multisegmentInMultipolygon m h context) ∧
    AnswersIn linearCompound (planar.contourInMultipolygon c h context) := by
  refine ⟨regionRelateSegment_answers _ _ _, ?_, regionContour_answers _ _ _ _,
    multiregionSegments_answers _ _ _ _, multiregionSegments_answers _ _ _ _,
    multiregionContour_answers _ _ _ _, polygonSegment_answers _ _ _, ?_,
    polygonContour_answers _ _ _, multipolygonSegments_answers _ _ _,
    multipolygonSegments_answers _ _ _, multipolygonContour_answers _ _ _⟩
  · unfold planar.multisegmentInRegion region.relateMultisegment
    try simp only []
    refine AnswersIn.ite (AnswersIn.pure (by simp [linearCompound])) ?_
    try simp only [pure_bind]
    exact AnswersIn.bind fun _ _ => runLinearCompound_answers _ _ _
  · unfold planar.multisegmentInPolygon polygon.relateMultisegment
    try simp only []
    refine AnswersIn.ite (AnswersIn.pure (by simp [linearCompound])) ?_
    try simp only [pure_bind]
    exact AnswersIn.bind fun _ _ => runLinearCompound_answers _ _ _

/-- C21, compound geometries in compound geometries. -/
theorem C21_compound_compound (context : Context K) (r r' : Region K) (n n' : Multiregion K)
    (g g' : Polygon K) (h h' : Multipolygon K) :
    AnswersIn compoundCompound (planar.regionInRegion r r' context) ∧
    AnswersIn compoundCompound (planar.regionInMultiregion r n context) ∧
    AnswersIn compoundCompound (planar.multiregionInMultiregion n n' context) ∧
    AnswersIn compoundCompound (planar.regionInPolygon r g context) ∧
    AnswersIn compoundCompound (planar.multiregionInPolygon n g context) ∧
    AnswersIn compoundCompound (planar.polygonInPolygon g g' context) ∧
    AnswersIn compoundCompound (planar.regionInMultipolygon r h context) ∧
    AnswersIn compoundCompound (planar.multiregionInMultipolygon n h context) ∧
    AnswersIn compoundCompound (planar.polygonInMultipolygon g h context) ∧
    AnswersIn compoundCompound (planar.multipolygonInMultipolygon h h' context) := by
  refine ⟨regionRegion_answers _ _ _ _ _, multiregionRegion_answers _ _ _ _,
    multiregionMultiregion_answers _ _ _, polygonRegion_answers _ _ _,
    polygonMultiregion_answers _ _ _, polygonPolygon_answers _ _ _, ?_, ?_, ?_, ?_⟩
  · unfold planar.regionInMultipolygon multipolygon.relateRegion
    refine AnswersIn.bind fun r _ => ?_
    obtain ⟨_, r⟩ := r
    cases r with
    | none => exact AnswersIn.pure (by simp [compoundCompound])
    | some r => exact AnswersIn.bind fun q hq =>
        AnswersIn.pure (correctSkipped_mem _ (runCompound_answers _ _ _ _ hq))
  · unfold planar.multiregionInMultipolygon multipolygon.relateMultiregion
    try simp only []
    refine AnswersIn.ite (AnswersIn.pure (by simp [compoundCompound])) ?_
    try simp only [pure_bind]
    exact AnswersIn.bind fun _ _ => AnswersIn.bind fun _ _ => runCompound_answers _ _ _
  · unfold planar.polygonInMultipolygon multipolygon.relatePolygon
    refine AnswersIn.bind fun r _ => ?_
    obtain ⟨_, r⟩ := r
    cases r with
    | none => exact AnswersIn.pure (by simp [compoundCompound])
    | some r => exact AnswersIn.bind fun q hq =>
        AnswersIn.pure (correctSkipped_mem _ (runCompound_answers _ _ _ _ hq))
  · unfold planar.multipolygonInMultipolygon multipolygon.relateMultipolygon
    exact AnswersIn.bind fun _ _ => AnswersIn.bind fun _ _ => runCompound_answers _ _ _

/-- C21, locations in linear geometries are never `INTERIOR`. -/
theorem C21_locations_linear (context : Context K) (p : Point K) (s : Segment K)
    (m : Multisegment K) (c : Contour K) :
    planar.pointInSegment p s context ≠ .interior ∧
    planar.pointInMultisegment p m context ≠ .interior ∧
    planar.pointInContour p c context ≠ .interior := by
  refine ⟨?_, ?_, ?_⟩
  · unfold planar.pointInSegment segment.locatePoint; split_ifs <;> simp
  · unfold planar.pointInMultisegment multisegment.locatePoint; split_ifs <;> simp
  · unfold planar.pointInContour contour.locatePoint; split_ifs <;> simp

/-- Every answer of the lists is really given. -/
example : let ctx : Context ℚ := reference.context
    planar.contourInRegion ⟨[⟨1, 1⟩, ⟨2, 1⟩, ⟨1, 2⟩]⟩ ⟨[⟨0, 0⟩, ⟨4, 0⟩, ⟨4, 4⟩, ⟨0, 4⟩]⟩ ctx
      = .ok .within ∧
    planar.regionInRegion ⟨[⟨0, 0⟩, ⟨4, 0⟩, ⟨4, 4⟩, ⟨0, 4⟩]⟩ ⟨[⟨0, 0⟩, ⟨2, 1⟩, ⟨1, 2⟩]⟩ ctx
      = .ok .encloses := by decide +kernel

end Orient.Props
