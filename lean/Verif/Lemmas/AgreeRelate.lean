import Verif.Lemmas.Agree

/-! The functions relating geometries are the same for contexts which agree on the points and segments that occur. -/

set_option linter.unusedSectionVars false

namespace Orient

variable {K : Type} [Field K] [LinearOrder K] [IsStrictOrderedRing K]

variable {c d : Context K} {N : Set (Point K)} {l : List (Segment K)} (S : Same c d N l)

/-! ### a segment and a multisegment -/

/-- The points kept by the loop are nodes. -/
structure multisegment.LoopState.In (st : multisegment.LoopState K) (N : Set (Point K)) : Prop where
  start : st.start ∈ N
  finish : st.finish ∈ N
  first : st.segmentEndpoints.1 ∈ N
  second : st.segmentEndpoints.2 ∈ N

theorem subtractSegmentsOverlap_mem {N : Set (Point K)} {m s : SegmentEndpoints K} (m1 : m.1 ∈ N) (m2 : m.2 ∈ N)
    (s1 : s.1 ∈ N) (s2 : s.2 ∈ N) :
    (multisegment.subtractSegmentsOverlap m s).1 ∈ N ∧ (multisegment.subtractSegmentsOverlap m s).2 ∈ N := by
  have key : ∀ p ∈ multisegment.sortPoints [m.1, m.2, s.1, s.2], p ∈ N := by
    intro p hp
    unfold multisegment.sortPoints at hp
    rw [List.mem_insertionSort] at hp
    simp only [List.mem_cons, List.not_mem_nil, or_false] at hp
    rcases hp with rfl | rfl | rfl | rfl <;> assumption
  unfold multisegment.subtractSegmentsOverlap
  split
  · next h =>
    rw [h] at key
    split
    · exact ⟨key _ (by simp), key _ (by simp)⟩
    · exact ⟨key _ (by simp), key _ (by simp)⟩
  · exact ⟨m1, m2⟩

include S

theorem Same.touchStep {u e : Segment K} (hu : u ∈ pieces N l) (he : e ∈ pieces N l)
    (ht : segment.relateSegment e u d = .touch) {st : multisegment.LoopState K} (hst : st.In N) :
    multisegment.touchStep c u e st = multisegment.touchStep d u e st ∧ (multisegment.touchStep d u e st).In N := by
  have ht' : d.segmentsRelation e u = .touch := by
    have h1 := S.exact.relation u e hu.1 he.1
    rw [show d.segmentsRelation u e = .touch from ht] at h1
    refine (S.exact.relation e u he.1 hu.1).unique he.1 hu.1 ?_
    obtain ⟨p, hp, h2⟩ := h1
    exact ⟨p, by rw [Set.inter_comm]; exact hp, h2.symm⟩
  have hi : c.segmentsIntersection e u = d.segmentsIntersection e u :=
    S.agree.intersection e he u hu (.inl ht')
  have ho : ∀ p ∈ N, c.angleOrientation st.start st.finish p = d.angleOrientation st.start st.finish p :=
    fun p hp => S.agree.orientation _ hst.start _ hst.finish _ hp
  have hn : (if d.segmentsIntersection e u = e.finish then e.start else e.finish) ∈ N := by
    split
    · exact he.2.1
    · exact he.2.2.1
  constructor
  · unfold multisegment.touchStep
    simp only [hi, ho _ hn]
  · unfold multisegment.touchStep
    simp only
    repeat' split
    all_goals exact ⟨hst.1, hst.2, hst.3, hst.4⟩

theorem Same.multisegmentStep {u e : Segment K} (hu : u ∈ pieces N l) (he : e ∈ pieces N l)
    {st : multisegment.LoopState K} (hst : st.In N) :
    multisegment.loopStep c u e st = multisegment.loopStep d u e st ∧
    ∀ st', multisegment.loopStep d u e st = some st' → st'.In N := by
  obtain ⟨h1, h2, h3, h4⟩ := hst
  have m1 : max e.start e.finish ∈ N := by
    rcases max_choice e.start e.finish with h | h <;> rw [h]
    exacts [he.2.1, he.2.2.1]
  have m2 : min e.start e.finish ∈ N := by
    rcases min_choice e.start e.finish with h | h <;> rw [h]
    exacts [he.2.1, he.2.2.1]
  have m3 := subtractSegmentsOverlap_mem (s := (e.start, e.finish)) h3 h4 he.2.1 he.2.2.1
  have touch : ∀ b : Bool, segment.relateSegment e u d = .touch →
      multisegment.touchStep c u e { st with isSegmentSuperset := b } =
        multisegment.touchStep d u e { st with isSegmentSuperset := b } ∧
      (multisegment.touchStep d u e { st with isSegmentSuperset := b }).In N := fun b ht =>
    S.touchStep hu he ht ⟨h1, h2, h3, h4⟩
  unfold multisegment.loopStep
  simp only [S.relateSegments he hu]
  constructor
  · split_ifs with a1 a2 a3 a4 a5 a6 a7 a8
    all_goals first
      | rfl
      | (rw [(touch false ‹_›).1])
  · intro st' h
    split_ifs at h with a1 a2 a3 a4 a5 a6 a7 a8
    all_goals cases h
    all_goals first
      | exact (touch false ‹_›).2
      | exact ⟨h1, h2, h3, h4⟩
      | exact ⟨m1, h2, m1, h2⟩
      | exact ⟨h1, m2, h1, m2⟩
      | exact ⟨m3.1, m3.2, m3.1, m3.2⟩

theorem Same.multisegmentLoop {u : Segment K} (hu : u ∈ pieces N l) {es : List (Segment K)}
    (hes : ∀ e ∈ es, e ∈ pieces N l) {st : multisegment.LoopState K} (hst : st.In N) :
    multisegment.loop c u es st = multisegment.loop d u es st := by
  induction es generalizing st with
  | nil => rfl
  | cons e es ih =>
    obtain ⟨h1, h2⟩ := S.multisegmentStep hu (hes e (by simp)) hst
    unfold multisegment.loop
    rw [h1]
    cases h : multisegment.loopStep d u e st with
    | none => rfl
    | some st' => exact ih (fun x hx => hes x (by simp [hx])) (h2 st' h)

theorem Same.multisegmentRelateSegment {m : Multisegment K} (hm : m.segments ⊆ l)
    (nm : ∀ e ∈ m.segments, e.Nondegenerate) {u : Segment K} (hu : u ∈ l) (nu : u.Nondegenerate) :
    multisegment.relateSegment m u c = multisegment.relateSegment m u d := by
  have hst : (multisegment.initialState u).In N := by
    obtain ⟨h1, h2⟩ := S.endpoint hu
    unfold multisegment.initialState
    refine ⟨?_, ?_, h1, h2⟩ <;> simp only <;> split <;> assumption
  unfold multisegment.relateSegment
  rw [S.multisegmentLoop (S.piece hu nu) (fun e he => S.piece (hm he) (nm e he)) hst]

/-! ### sweeps for multisegments, contours and regions -/

theorem Same.multisegments (al : Alike c d N) {m m' : Multisegment K} (hm : m.segments ⊆ l) (hm' : m'.segments ⊆ l)
    (nm : ∀ e ∈ m.segments, e.Nondegenerate) (nm' : ∀ e ∈ m'.segments, e.Nondegenerate) (em : m.segments ≠ [])
    (em' : m'.segments ≠ []) :
    multisegment.relateMultisegment m m' c = multisegment.relateMultisegment m m' d := by
  unfold multisegment.relateMultisegment
  simp only [S.segmentsBox em, S.segmentsBox em',
    S.runOpenLinear al (registered (matches_segments m) (matches_segments m') nm nm') hm hm']

theorem Same.contourMultisegment (al : Alike c d N) {k : Contour K} {m : Multisegment K} (hk : k.edgeList ⊆ l)
    (hm : m.segments ⊆ l) (dk : k.Drawn) (nm : ∀ e ∈ m.segments, e.Nondegenerate) (em : m.segments ≠ []) :
    contour.relateMultisegment k m c = contour.relateMultisegment k m d := by
  unfold contour.relateMultisegment
  simp only [S.segmentsBox em, S.contourBox dk,
    S.runOpenLinear al (registered (matches_edges k) (matches_segments m) dk.2 nm) hk hm]

omit S in
theorem bind_congr_ok {α β : Type} {x : Py α} {f g : α → Py β} (h : ∀ a, x = .ok a → f a = g a) :
    (x >>= f) = (x >>= g) := by
  cases x with
  | error => rfl
  | ok a => exact h a rfl

theorem Same.contours {k k' : Contour K} (hk : k.edgeList ⊆ l) (hk' : k'.edgeList ⊆ l) (dk : k.Drawn)
    (dk' : k'.Drawn) : contour.relateContour k k' c = contour.relateContour k k' d := by
  unfold contour.relateContour
  simp only [S.contourBox dk, S.contourBox dk', S.equal hk hk', S.oriented' hk, S.oriented' hk']
  split
  · rfl
  refine bind_congr_ok fun b _ => ?_
  split
  · rfl
  refine bind_congr_ok fun e he => bind_congr_ok fun e' he' => ?_
  exact S.runClosedLinear (registered (matches_oriented he) (matches_oriented he') dk.2 dk'.2) hk hk' _

theorem Same.regionMultisegment {k : Contour K} {m : Multisegment K} (hk : k.edgeList ⊆ l)
    (hm : m.segments ⊆ l) (dk : k.Drawn) (nm : ∀ e ∈ m.segments, e.Nondegenerate) (em : m.segments ≠ []) :
    region.relateMultisegment k m c = region.relateMultisegment k m d := by
  unfold region.relateMultisegment
  simp only [S.segmentsBox em, S.contourBox dk, S.oriented hk]
  split
  · rfl
  refine bind_congr_ok fun e he => ?_
  exact S.runLinearCompound (registered (matches_oriented he) (matches_segments m) dk.2 nm) hk hm _

theorem Same.regionContourBoxed {k k' : Contour K} (hk : k.edgeList ⊆ l) (hk' : k'.edgeList ⊆ l) (dk : k.Drawn)
    (dk' : k'.Drawn) (b : Box K) : region.relateContourBoxed k k' b c = region.relateContourBoxed k k' b d := by
  unfold region.relateContourBoxed
  simp only [S.contourBox dk, S.equal hk hk', S.oriented hk]
  split
  · rfl
  refine bind_congr_ok fun b _ => ?_
  split
  · rfl
  refine bind_congr_ok fun e he => ?_
  exact S.runLinearCompound (registered (matches_oriented he) (matches_edges k') dk.2 dk'.2) hk hk' _

theorem Same.regionContour {k k' : Contour K} (hk : k.edgeList ⊆ l) (hk' : k'.edgeList ⊆ l) (dk : k.Drawn)
    (dk' : k'.Drawn) : region.relateContour k k' c = region.relateContour k k' d := by
  unfold region.relateContour
  rw [S.contourBox dk', S.regionContourBoxed hk hk' dk dk']

theorem Same.regionsBoxed {k k' : Contour K} (hk : k.edgeList ⊆ l) (hk' : k'.edgeList ⊆ l) (dk : k.Drawn)
    (dk' : k'.Drawn) (b b' : Box K) :
    region.relateRegionBoxed k k' b b' c = region.relateRegionBoxed k k' b b' d := by
  unfold region.relateRegionBoxed
  simp only [S.equal hk hk', S.oriented hk, S.oriented hk']
  split
  · rfl
  refine bind_congr_ok fun b _ => ?_
  split
  · rfl
  refine bind_congr_ok fun e he => bind_congr_ok fun e' he' => ?_
  exact S.runCompound (registered (matches_oriented he) (matches_oriented he') dk.2 dk'.2) hk hk' _

theorem Same.regions {k k' : Contour K} (hk : k.edgeList ⊆ l) (hk' : k'.edgeList ⊆ l) (dk : k.Drawn)
    (dk' : k'.Drawn) : region.relateRegion k k' c = region.relateRegion k k' d := by
  unfold region.relateRegion
  rw [S.contourBox dk, S.contourBox dk', S.regionsBoxed hk hk' dk dk']

/-! ### multiregions -/

omit S in
theorem Multiregion.edgeList_sub {m : Multiregion K} (hm : Multiregion.edgeList m ⊆ l) {k : Contour K} (hk : k ∈ m) :
    k.edgeList ⊆ l := fun _ he => hm (List.mem_flatMap.mpr ⟨k, hk, he⟩)

omit S in
theorem Multipolygon.edgeList_sub {m : Multipolygon K} (hm : m.edgeList ⊆ l) {g : Polygon K} (hg : g ∈ m.polygons) :
    g.edgeList ⊆ l := fun _ he => hm (List.mem_flatMap.mpr ⟨g, hg, he⟩)

theorem Same.locateMultiregion {m : Multiregion K} (hm : Multiregion.edgeList m ⊆ l) {p : Point K} (hp : p ∈ N) :
    multiregion.locatePoint m p c = multiregion.locatePoint m p d := by
  induction m with
  | nil => rfl
  | cons k m ih =>
    have ih := ih fun e he => by
      obtain ⟨k', hk', he⟩ := List.mem_flatMap.mp he
      exact hm (List.mem_flatMap.mpr ⟨k', by simp [hk'], he⟩)
    unfold multiregion.locatePoint
    simp only [S.locateRegion (Multiregion.edgeList_sub hm (by simp : k ∈ k :: m)) hp, ih]

theorem Same.partsRegions {m : Multiregion K} (hm : Multiregion.edgeList m ⊆ l) (dm : Multiregion.Drawn m) (b : Box K)
    {t t' : Py (List (SegmentEndpoints K))} (ht : t = t') :
    registerParts c.contourBox (fun r => region.toOrientedSegments r c) b t m true none =
    registerParts d.contourBox (fun r => region.toOrientedSegments r d) b t' m true none :=
  registerParts_congr (fun k hk => S.contourBox (dm k hk))
    (fun k hk => S.oriented (Multiregion.edgeList_sub hm hk) _) rfl ht _ _

theorem Same.multiregionMultisegmentBoxed {k : Multiregion K} {m : Multisegment K} (hk : Multiregion.edgeList k ⊆ l)
    (hm : m.segments ⊆ l) (dk : Multiregion.Drawn k) (nm : ∀ e ∈ m.segments, e.Nondegenerate) (b : Box K) :
    multiregion.relateMultisegmentBoxed k m b c = multiregion.relateMultisegmentBoxed k m b d := by
  unfold multiregion.relateMultisegmentBoxed
  rw [S.partsRegions hk dk b rfl]
  refine registerParts_bind (E := Contour.edgeList) ⟨_, rfl, matches_segments m⟩ nm
    (fun p hp => ⟨(dk p hp).oriented d false, (dk p hp).2⟩) (fun _ => rfl) ?_
  intro nd x s G hG hs
  exact S.runLinearCompound hs (fun e he => hk (hG he)) hm _

theorem Same.multiregionSegment {k : Multiregion K} {u : Segment K} (hk : Multiregion.edgeList k ⊆ l)
    (hu : u ∈ l) (dk : Multiregion.Drawn k) (nu : u.Nondegenerate) :
    multiregion.relateSegment k u c = multiregion.relateSegment k u d := by
  unfold multiregion.relateSegment
  rw [S.segmentBox, S.multiregionMultisegmentBoxed (m := ⟨[u]⟩) hk (by simpa using hu) dk (by simpa using nu)]

theorem Same.multiregionMultisegment {k : Multiregion K} {m : Multisegment K} (hk : Multiregion.edgeList k ⊆ l)
    (hm : m.segments ⊆ l) (dk : Multiregion.Drawn k) (nm : ∀ e ∈ m.segments, e.Nondegenerate) (em : m.segments ≠ []) :
    multiregion.relateMultisegment k m c = multiregion.relateMultisegment k m d := by
  unfold multiregion.relateMultisegment
  rw [S.segmentsBox em, S.multiregionMultisegmentBoxed hk hm dk nm]

theorem Same.multiregionContourBoxed {k : Multiregion K} {m : Contour K} (hk : Multiregion.edgeList k ⊆ l)
    (hm : m.edgeList ⊆ l) (dk : Multiregion.Drawn k) (dm : m.Drawn) (b : Box K) :
    multiregion.relateContourBoxed k m b c = multiregion.relateContourBoxed k m b d := by
  unfold multiregion.relateContourBoxed
  rw [S.partsRegions hk dk b rfl]
  refine registerParts_bind (E := Contour.edgeList) ⟨_, rfl, matches_edges m⟩ dm.2
    (fun p hp => ⟨(dk p hp).oriented d false, (dk p hp).2⟩) (fun _ => rfl) ?_
  intro nd x s G hG hs
  exact S.runLinearCompound hs (fun e he => hk (hG he)) hm _

theorem Same.multiregionContour {k : Multiregion K} {m : Contour K} (hk : Multiregion.edgeList k ⊆ l)
    (hm : m.edgeList ⊆ l) (dk : Multiregion.Drawn k) (dm : m.Drawn) :
    multiregion.relateContour k m c = multiregion.relateContour k m d := by
  unfold multiregion.relateContour
  rw [S.contourBox dm, S.multiregionContourBoxed hk hm dk dm]

theorem Same.multiregionRegionBoxed {k : Multiregion K} {m : Contour K} (hk : Multiregion.edgeList k ⊆ l)
    (hm : m.edgeList ⊆ l) (dk : Multiregion.Drawn k) (dm : m.Drawn) (b : Box K) :
    multiregion.relateRegionBoxed k m b c = multiregion.relateRegionBoxed k m b d := by
  unfold multiregion.relateRegionBoxed
  rw [S.partsRegions hk dk b (S.oriented hm false)]
  refine registerParts_bind (E := Contour.edgeList) (dm.oriented d false) dm.2
    (fun p hp => ⟨(dk p hp).oriented d false, (dk p hp).2⟩) (fun _ => rfl) ?_
  intro nd x s G hG hs
  simp only [S.runCompound hs (fun e he => hk (hG he)) hm _]

theorem Same.multiregionRegion {k : Multiregion K} {m : Contour K} (hk : Multiregion.edgeList k ⊆ l)
    (hm : m.edgeList ⊆ l) (dk : Multiregion.Drawn k) (dm : m.Drawn) :
    multiregion.relateRegion k m c = multiregion.relateRegion k m d := by
  unfold multiregion.relateRegion
  rw [S.contourBox dm, S.multiregionRegionBoxed hk hm dk dm]

theorem Same.multiregions {k k' : Multiregion K} (hk : Multiregion.edgeList k ⊆ l) (hk' : Multiregion.edgeList k' ⊆ l)
    (dk : Multiregion.Drawn k) (dk' : Multiregion.Drawn k') (nk : k ≠ []) (nk' : k' ≠ []) :
    multiregion.relateMultiregion k k' c = multiregion.relateMultiregion k k' d := by
  unfold multiregion.relateMultiregion
  simp only [S.contoursBox dk nk, S.contoursBox dk' nk', S.multiregionOriented hk, S.multiregionOriented hk']
  split
  · rfl
  refine bind_congr_ok fun e he => bind_congr_ok fun e' he' => ?_
  obtain ⟨f, hf, mf⟩ := dk.oriented d false
  obtain ⟨f', hf', mf'⟩ := dk'.oriented d false
  rw [he] at hf
  rw [he'] at hf'
  cases hf
  cases hf'
  exact S.runCompound (registered mf mf' dk.nondegenerate dk'.nondegenerate) hk hk' _

/-! ### polygons -/

theorem Same.locatePolygon {g : Polygon K} (hg : g.edgeList ⊆ l) {p : Point K} (hp : p ∈ N) :
    polygon.locatePoint g p c = polygon.locatePoint g p d := by
  have key : ∀ m : Multiregion K, Multiregion.edgeList m ⊆ l →
      polygon.locateInHoles c p m = polygon.locateInHoles d p m := by
    intro m
    induction m with
    | nil => exact fun _ => rfl
    | cons k m ih =>
      intro hm
      have ih := ih fun e he => by
        obtain ⟨k', hk', he⟩ := List.mem_flatMap.mp he
        exact hm (List.mem_flatMap.mpr ⟨k', by simp [hk'], he⟩)
      unfold polygon.locateInHoles
      simp only [S.locateRegion (Multiregion.edgeList_sub hm (by simp : k ∈ k :: m)) hp, ih]
  unfold polygon.locatePoint
  simp only [S.locateRegion (fun e he => hg (List.mem_append_left _ he)) hp,
    key g.holes fun e he => hg (List.mem_append_right _ he)]

section polygon

variable {g : Polygon K} (hg : g.edgeList ⊆ l) (dg : g.Drawn)

include hg dg

theorem Same.polygonSegment {u : Segment K} (hu : u ∈ l) (nu : u.Nondegenerate) :
    polygon.relateSegment g u c = polygon.relateSegment g u d := by
  have h1 : g.border.edgeList ⊆ l := fun e he => hg (List.mem_append_left _ he)
  have h2 : Multiregion.edgeList g.holes ⊆ l := fun e he => hg (List.mem_append_right _ he)
  unfold polygon.relateSegment
  rw [S.regionRelateSegment h1 dg.1 hu nu, S.multiregionSegment h2 hu dg.2 nu]

theorem Same.polygonMultisegment {m : Multisegment K} (hm : m.segments ⊆ l) (nm : ∀ e ∈ m.segments, e.Nondegenerate)
    (em : m.segments ≠ []) : polygon.relateMultisegment g m c = polygon.relateMultisegment g m d := by
  unfold polygon.relateMultisegment
  simp only [S.polygonBox dg, S.segmentsBox em, S.polygonOriented hg]
  split
  · rfl
  refine bind_congr_ok fun e he => ?_
  obtain ⟨f, hf, mf⟩ := dg.oriented d false
  rw [he] at hf
  cases hf
  exact S.runLinearCompound (registered mf (matches_segments m) dg.nondegenerate nm) hg hm _

theorem Same.polygonContour {k : Contour K} (hk : k.edgeList ⊆ l) (dk : k.Drawn) :
    polygon.relateContour g k c = polygon.relateContour g k d := by
  have h1 : g.border.edgeList ⊆ l := fun e he => hg (List.mem_append_left _ he)
  have h2 : Multiregion.edgeList g.holes ⊆ l := fun e he => hg (List.mem_append_right _ he)
  unfold polygon.relateContour
  simp only [S.contourBox dk, S.regionContourBoxed h1 hk dg.1 dk, S.multiregionContourBoxed h2 hk dg.2 dk]

theorem Same.polygonRegion {k : Contour K} (hk : k.edgeList ⊆ l) (dk : k.Drawn) :
    polygon.relateRegion g k c = polygon.relateRegion g k d := by
  have h1 : g.border.edgeList ⊆ l := fun e he => hg (List.mem_append_left _ he)
  have h2 : Multiregion.edgeList g.holes ⊆ l := fun e he => hg (List.mem_append_right _ he)
  unfold polygon.relateRegion
  simp only [S.contourBox dk, S.contourBox dg.1, S.regionsBoxed h1 hk dg.1 dk, S.multiregionRegionBoxed h2 hk dg.2 dk]

end polygon

theorem Same.multiregionLoop {k : Contour K} (hk : k.edgeList ⊆ l) (dk : k.Drawn) (b : Box K) {m : Multiregion K}
    (hm : Multiregion.edgeList m ⊆ l) (dm : Multiregion.Drawn m) (t : Bool) (s : Multiregion K) :
    polygon.relateMultiregionLoop k b c m t s = polygon.relateMultiregionLoop k b d m t s ∧
    ∀ t' s', polygon.relateMultiregionLoop k b d m t s = .ok (.inr (t', s')) → s' ⊆ s ++ m := by
  induction m generalizing t s with
  | nil =>
    refine ⟨rfl, fun t' s' h => ?_⟩
    cases h
    simp
  | cons k' m ih =>
    have ih := ih (fun e he => by
      obtain ⟨k', hk', he⟩ := List.mem_flatMap.mp he
      exact hm (List.mem_flatMap.mpr ⟨k', by simp [hk'], he⟩)) fun k hk => dm k (by simp [hk])
    have h' := Multiregion.edgeList_sub hm (by simp : k' ∈ k' :: m)
    have d' := dm k' (by simp)
    unfold polygon.relateMultiregionLoop
    simp only [S.contourBox d', S.regionsBoxed hk h' dk d']
    cases region.relateRegionBoxed k k' b (d.contourBox k') d with
    | error e => exact ⟨rfl, fun t' s' h => by cases h⟩
    | ok r =>
      have grow : ∀ {s' s'' : Multiregion K}, s'' ⊆ s' ++ m → (∀ x ∈ s', x ∈ s ∨ x = k') → s'' ⊆ s ++ k' :: m := by
        intro s' s'' h1 h2 x hx
        rcases List.mem_append.mp (h1 hx) with h | h
        · rcases h2 x h with h | rfl <;> simp [*]
        · simp [h]
      simp only [bind, Except.bind]
      cases r <;> refine ⟨?_, fun t' s' h => ?_⟩ <;> (try simp only at h) <;> first
        | rfl
        | exact (ih _ _).1
        | (cases h; done)
        | exact grow ((ih _ _).2 t' s' h) (fun x hx => Or.inl hx)
        | exact grow ((ih _ _).2 t' s' h) (fun x hx => by simpa using hx)

theorem Same.holesLoop {k : Contour K} (hk : k.edgeList ⊆ l) (dk : k.Drawn) (b : Box K) {m : Multiregion K}
    (hm : Multiregion.edgeList m ⊆ l) (dm : Multiregion.Drawn m) (t : Bool) (s : Multiregion K) :
    polygon.holesLoop k b c m t s = polygon.holesLoop k b d m t s ∧
    ∀ t' s', polygon.holesLoop k b d m t s = .ok (.inr (t', s')) → s' ⊆ s ++ m := by
  induction m generalizing t s with
  | nil =>
    refine ⟨rfl, fun t' s' h => ?_⟩
    cases h
    simp
  | cons k' m ih =>
    have ih := ih (fun e he => by
      obtain ⟨k', hk', he⟩ := List.mem_flatMap.mp he
      exact hm (List.mem_flatMap.mpr ⟨k', by simp [hk'], he⟩)) fun k hk => dm k (by simp [hk])
    have h' := Multiregion.edgeList_sub hm (by simp : k' ∈ k' :: m)
    have d' := dm k' (by simp)
    unfold polygon.holesLoop
    simp only [S.contourBox d', S.regionsBoxed hk h' dk d']
    cases region.relateRegionBoxed k k' b (d.contourBox k') d with
    | error e => exact ⟨rfl, fun t' s' h => by cases h⟩
    | ok r =>
      have grow : ∀ {s' s'' : Multiregion K}, s'' ⊆ s' ++ m → (∀ x ∈ s', x ∈ s ∨ x = k') → s'' ⊆ s ++ k' :: m := by
        intro s' s'' h1 h2 x hx
        rcases List.mem_append.mp (h1 hx) with h | h
        · rcases h2 x h with h | rfl <;> simp [*]
        · simp [h]
      simp only [bind, Except.bind]
      cases r <;> refine ⟨?_, fun t' s' h => ?_⟩ <;> (try simp only at h) <;> first
        | rfl
        | exact (ih _ _).1
        | (cases h; done)
        | exact grow ((ih _ _).2 t' s' h) (fun x hx => Or.inl hx)
        | exact grow ((ih _ _).2 t' s' h) (fun x hx => by simpa using hx)

omit S in
theorem Multiregion.edgeList_subset {m s : Multiregion K} (hm : Multiregion.edgeList m ⊆ l) (h : s ⊆ m) :
    Multiregion.edgeList s ⊆ l := fun e he => by
  obtain ⟨k, hk, he⟩ := List.mem_flatMap.mp he
  exact hm (List.mem_flatMap.mpr ⟨k, h hk, he⟩)

theorem Same.polygonMultiregion {g : Polygon K} (hg : g.edgeList ⊆ l) (dg : g.Drawn) {m : Multiregion K}
    (hm : Multiregion.edgeList m ⊆ l) (dm : Multiregion.Drawn m) :
    polygon.relateMultiregion g m c = polygon.relateMultiregion g m d := by
  have h1 : g.border.edgeList ⊆ l := fun e he => hg (List.mem_append_left _ he)
  have h2 : Multiregion.edgeList g.holes ⊆ l := fun e he => hg (List.mem_append_right _ he)
  obtain ⟨k1, k2⟩ := S.multiregionLoop h1 dg.1 (d.contourBox g.border) hm dm true []
  unfold polygon.relateMultiregion
  simp only [S.contourBox dg.1, S.multiregionRegionBoxed hm h1 dm dg.1, k1]
  split
  · rfl
  · next hne =>
    refine bind_congr_ok fun r hr => ?_
    cases r with
    | inl r => rfl
    | inr q =>
      obtain ⟨t, s⟩ := q
      have hs : s ⊆ m := by simpa using k2 t s hr
      simp only
      split
      · next hs0 =>
        rw [S.multiregions h2 (Multiregion.edgeList_subset hm hs) dg.2 (fun k hk => dm k (hs hk)) hne hs0]
      · rfl

theorem Same.polygons {g g' : Polygon K} (hg : g.edgeList ⊆ l) (hg' : g'.edgeList ⊆ l) (dg : g.Drawn) (dg' : g'.Drawn) :
    polygon.relatePolygon g g' c = polygon.relatePolygon g g' d := by
  have h1 : g.border.edgeList ⊆ l := fun e he => hg (List.mem_append_left _ he)
  have h2 : Multiregion.edgeList g.holes ⊆ l := fun e he => hg (List.mem_append_right _ he)
  have h1' : g'.border.edgeList ⊆ l := fun e he => hg' (List.mem_append_left _ he)
  have h2' : Multiregion.edgeList g'.holes ⊆ l := fun e he => hg' (List.mem_append_right _ he)
  obtain ⟨k1, k2⟩ := S.holesLoop h1' dg'.1 (d.polygonBox g') h2 dg.2 true []
  obtain ⟨k1', k2'⟩ := S.holesLoop h1 dg.1 (d.polygonBox g) h2' dg'.2 true []
  have holes : g.holes ≠ [] ∧ g'.holes ≠ [] →
      multiregion.relateMultiregion g'.holes g.holes c = multiregion.relateMultiregion g'.holes g.holes d := fun h =>
    S.multiregions h2' h2 dg'.2 dg.2 h.2 h.1
  unfold polygon.relatePolygon
  simp only [S.polygonBox dg, S.polygonBox dg', S.regionsBoxed h1 h1' dg.1 dg'.1, k1, k1']
  refine bind_congr_ok fun r hr => ?_
  cases r <;> simp only
  all_goals first
    | rfl
    | (split
       · rw [holes ‹_›]
       · rfl)
    | (split
       · refine bind_congr_ok fun r hr => ?_
         cases r with
         | inl r => rfl
         | inr q =>
           obtain ⟨t, s⟩ := q
           simp only
           split
           · next hs0 =>
             split
             · next hn =>
               first
                 | rw [S.multiregions h2' (Multiregion.edgeList_subset h2 (by simpa using k2 t s hr)) dg'.2
                     (fun k hk => dg.2 k ((show s ⊆ g.holes by simpa using k2 t s hr) hk)) hn hs0]
                 | rw [S.multiregions h2 (Multiregion.edgeList_subset h2' (by simpa using k2' t s hr)) dg.2
                     (fun k hk => dg'.2 k ((show s ⊆ g'.holes by simpa using k2' t s hr) hk)) hn hs0]
             · rfl
           · rfl
       · rfl)

/-! ### multipolygons -/

theorem Same.locateMultipolygon {m : Multipolygon K} (hm : m.edgeList ⊆ l) {p : Point K} (hp : p ∈ N) :
    multipolygon.locatePoint m p c = multipolygon.locatePoint m p d := by
  obtain ⟨gs⟩ := m
  unfold multipolygon.locatePoint
  simp only
  induction gs with
  | nil => rfl
  | cons g gs ih =>
    have ih := ih fun e he => by
      obtain ⟨k', hk', he⟩ := List.mem_flatMap.mp he
      exact hm (List.mem_flatMap.mpr ⟨k', by simp [hk'], he⟩)
    unfold multipolygon.locateIn
    simp only [S.locatePolygon (Multipolygon.edgeList_sub hm (by simp : g ∈ g :: gs)) hp, ih]

theorem Same.partsPolygons {m : Multipolygon K} (hm : m.edgeList ⊆ l) (dm : m.Drawn) (b : Box K)
    {t t' : Py (List (SegmentEndpoints K))} (ht : t = t') :
    registerParts c.polygonBox (fun g => polygon.toOrientedEdgesEndpoints g c) b t m.polygons true none =
    registerParts d.polygonBox (fun g => polygon.toOrientedEdgesEndpoints g d) b t' m.polygons true none :=
  registerParts_congr (fun k hk => S.polygonBox (dm k hk))
    (fun k hk => S.polygonOriented (Multipolygon.edgeList_sub hm hk) _) rfl ht _ _

section multipolygon

variable {k : Multipolygon K} (hk : k.edgeList ⊆ l) (dk : k.Drawn)

include hk dk

theorem Same.multipolygonMultisegment {m : Multisegment K} (hm : m.segments ⊆ l)
    (nm : ∀ e ∈ m.segments, e.Nondegenerate) (em : m.segments ≠ []) :
    multipolygon.relateMultisegment k m c = multipolygon.relateMultisegment k m d := by
  unfold multipolygon.relateMultisegment
  simp only [S.segmentsBox em]
  rw [S.partsPolygons hk dk _ rfl]
  refine registerParts_bind (E := Polygon.edgeList) ⟨_, rfl, matches_segments m⟩ nm
    (fun p hp => ⟨(dk p hp).oriented d false, (dk p hp).nondegenerate⟩) (fun _ => rfl) ?_
  intro nd x s G hG hs
  exact S.runLinearCompound hs (fun e he => hk (hG he)) hm _

theorem Same.multipolygonSegment {u : Segment K} (hu : u ∈ l) (nu : u.Nondegenerate) :
    multipolygon.relateSegment k u c = multipolygon.relateSegment k u d := by
  unfold multipolygon.relateSegment
  exact S.multipolygonMultisegment hk dk (by simpa using hu) (by simpa using nu) (by simp)

theorem Same.multipolygonContour {m : Contour K} (hm : m.edgeList ⊆ l) (dm : m.Drawn) :
    multipolygon.relateContour k m c = multipolygon.relateContour k m d := by
  unfold multipolygon.relateContour
  simp only [S.contourBox dm]
  rw [S.partsPolygons hk dk _ rfl]
  refine registerParts_bind (E := Polygon.edgeList) ⟨_, rfl, matches_edges m⟩ dm.2
    (fun p hp => ⟨(dk p hp).oriented d false, (dk p hp).nondegenerate⟩) (fun _ => rfl) ?_
  intro nd x s G hG hs
  exact S.runLinearCompound hs (fun e he => hk (hG he)) hm _

theorem Same.multipolygonRegion {m : Contour K} (hm : m.edgeList ⊆ l) (dm : m.Drawn) :
    multipolygon.relateRegion k m c = multipolygon.relateRegion k m d := by
  unfold multipolygon.relateRegion
  simp only [S.contourBox dm]
  rw [S.partsPolygons hk dk _ (S.oriented hm false)]
  refine registerParts_bind (E := Polygon.edgeList) (dm.oriented d false) dm.2
    (fun p hp => ⟨(dk p hp).oriented d false, (dk p hp).nondegenerate⟩) (fun _ => rfl) ?_
  intro nd x s G hG hs
  simp only [S.runCompound hs (fun e he => hk (hG he)) hm _]

theorem Same.multipolygonPolygon {g : Polygon K} (hg : g.edgeList ⊆ l) (dg : g.Drawn) :
    multipolygon.relatePolygon k g c = multipolygon.relatePolygon k g d := by
  unfold multipolygon.relatePolygon
  simp only [S.polygonBox dg]
  rw [S.partsPolygons hk dk _ (S.polygonOriented hg false)]
  refine registerParts_bind (E := Polygon.edgeList) (dg.oriented d false) dg.nondegenerate
    (fun p hp => ⟨(dk p hp).oriented d false, (dk p hp).nondegenerate⟩) (fun _ => rfl) ?_
  intro nd x s G hG hs
  simp only [S.runCompound hs (fun e he => hk (hG he)) hg _]

theorem Same.multipolygonMultiregion {m : Multiregion K} (hm : Multiregion.edgeList m ⊆ l) (dm : Multiregion.Drawn m)
    (nk : k.polygons ≠ []) (nm : m ≠ []) :
    multipolygon.relateMultiregion k m c = multipolygon.relateMultiregion k m d := by
  unfold multipolygon.relateMultiregion
  simp only [S.contoursBox dm nm, S.polygonsBox dk nk, S.multiregionOriented hm, S.multipolygonOriented hk]
  split
  · rfl
  refine bind_congr_ok fun e he => bind_congr_ok fun e' he' => ?_
  obtain ⟨f, hf, mf⟩ := dk.oriented d false
  obtain ⟨f', hf', mf'⟩ := dm.oriented d false
  rw [he] at hf
  rw [he'] at hf'
  cases hf
  cases hf'
  exact S.runCompound (registered mf mf' dk.nondegenerate dm.nondegenerate) hk hm _

theorem Same.multipolygons {m : Multipolygon K} (hm : m.edgeList ⊆ l) (dm : m.Drawn) (nk : k.polygons ≠ [])
    (nm : m.polygons ≠ []) :
    multipolygon.relateMultipolygon k m c = multipolygon.relateMultipolygon k m d := by
  unfold multipolygon.relateMultipolygon
  simp only [S.polygonsBox dm nm, S.polygonsBox dk nk, S.multipolygonOriented hm, S.multipolygonOriented hk]
  refine bind_congr_ok fun e he => bind_congr_ok fun e' he' => ?_
  obtain ⟨f, hf, mf⟩ := dk.oriented d false
  obtain ⟨f', hf', mf'⟩ := dm.oriented d false
  rw [he] at hf
  rw [he'] at hf'
  cases hf
  cases hf'
  exact S.runCompound (registered mf mf' dk.nondegenerate dm.nondegenerate) hk hm _

end multipolygon

end Orient
