import Verif.Lemmas.Sweep.Agree
import Verif.Lemmas.Sweep.Settles
import Verif.Props.Itself
import Verif.Props.PolygonInPolygon

/-! Everything is the same for contexts which agree on the points and segments that occur. -/

set_option linter.unusedSectionVars false

namespace Orient

variable {K : Type} [Field K] [LinearOrder K] [IsStrictOrderedRing K]

/-- A context which is exact where it matters agrees there with any exact context. -/
theorem Context.ExactOn.agree {c d : Context K} {N : Set (Point K)} {l : List (Segment K)} (hc : c.ExactOn N l)
    (hd : d.Exact) : Agree c d N l := by
  have rel : ∀ t ∈ pieces N l, ∀ g ∈ pieces N l, c.segmentsRelation t g = d.segmentsRelation t g :=
    fun t ht g hg => (hc.relation t ht g hg).unique ht.1 hg.1 (hd.relation t g ht.1 hg.1)
  refine ⟨fun v hv a ha b hb => ?_, fun s hs p hp => ?_, rel, fun t ht g hg h => ?_⟩
  · have c1 := hc.counterclockwise v hv a ha b hb
    have c2 := hc.clockwise v hv a ha b hb
    rw [← hd.counterclockwise] at c1
    rw [← hd.clockwise] at c2
    cases h1 : c.angleOrientation v a b <;> cases h2 : d.angleOrientation v a b <;> simp_all
  · rw [Bool.eq_iff_iff, hc.contains s hs p hp, hd.contains]
  · have h1 := hc.intersection t ht g hg (by rwa [rel t ht g hg])
    have h2 := hd.intersection t g ht.1 hg.1 h
    have h3 := hd.relation t g ht.1 hg.1
    have : ∃ p, t.pts ∩ g.pts = {p} := by
      rcases h with h | h <;> rw [h] at h3 <;> exact ⟨_, h3.choose_spec.1⟩
    obtain ⟨p, hp⟩ := this
    rw [hp] at h1 h2
    exact (Set.mem_singleton_iff.mp h1).trans (Set.mem_singleton_iff.mp h2).symm

theorem Context.MeasuresOn.alike {c d : Context K} {N : Set (Point K)} (hc : c.MeasuresOn N) (hd : d.Exact) :
    Alike c d N :=
  fun v hv p hp a ha b hb _ _ _ => by
    unfold Context.squaredCosine
    rw [hc.dotProduct v hv p hp v hv a ha, hc.dotProduct v hv p hp v hv b hb, hc.pointsSquaredDistance v hv a ha,
      hc.pointsSquaredDistance v hv b hb, hd.dotProduct, hd.dotProduct, hd.pointsSquaredDistance,
      hd.pointsSquaredDistance]

theorem Context.ExactOn.mono {c : Context K} {N N' : Set (Point K)} {l l' : List (Segment K)} (h : c.ExactOn N l)
    (hN : N' ⊆ N) (hl : l' ⊆ l) : c.ExactOn N' l' :=
  { h with
    counterclockwise := fun v hv a ha b hb => h.counterclockwise v (hN hv) a (hN ha) b (hN hb)
    clockwise := fun v hv a ha b hb => h.clockwise v (hN hv) a (hN ha) b (hN hb)
    contains := fun s hs p hp => h.contains s (hl hs) p (hN hp)
    relation := fun t ht g hg => h.relation t (pieces_mono hN hl ht) g (pieces_mono hN hl hg)
    intersection := fun t ht g hg => h.intersection t (pieces_mono hN hl ht) g (pieces_mono hN hl hg) }

theorem Context.Exact.exactOn {c : Context K} (h : c.Exact) (N : Set (Point K)) (l : List (Segment K)) :
    c.ExactOn N l :=
  { h with
    counterclockwise := fun v _ a _ b _ => h.counterclockwise v a b
    clockwise := fun v _ a _ b _ => h.clockwise v a b
    contains := fun s _ p _ => h.contains s p
    relation := fun t ht g hg => h.relation t g ht.1 hg.1
    intersection := fun t ht g hg => h.intersection t g ht.1 hg.1 }

/-- What the proofs below need. -/
structure Same (c d : Context K) (N : Set (Point K)) (l : List (Segment K)) : Prop where
  on : c.ExactOn N l
  exact : d.Exact
  nodes : nodes l ⊆ N

variable {c d : Context K} {N : Set (Point K)} {l : List (Segment K)} (S : Same c d N l)

theorem pyGet_mem {α : Type} {l : List α} {i : Int} {a : α} (h : pyGet l i = .ok a) : a ∈ l := by
  unfold pyGet at h
  cases hk : l[(if i < 0 then i + (l.length : Int) else i).toNat]? with
  | none => rw [hk] at h; cases h
  | some b =>
    rw [hk] at h
    simp only at h
    by_cases hn : (if i < 0 then i + (l.length : Int) else i) < 0
    · rw [if_pos hn] at h; cases h
    · rw [if_neg hn] at h
      cases h
      exact List.mem_of_getElem? hk

theorem mem_vertices_edge {k : Contour K} {p : Point K} (h : p ∈ k.vertices) :
    ∃ e ∈ k.edgeList, e.finish = p := by
  obtain ⟨i, hi, rfl⟩ := List.getElem_of_mem h
  have hl : i < k.edgeList.length := by simp [Contour.edgeList, hi]
  exact ⟨k.edgeList[i], List.getElem_mem hl, by simp [Contour.edgeList]⟩

include S

theorem Same.agree : Agree c d N l := S.on.agree S.exact

theorem Same.endpoint {u : Segment K} (hu : u ∈ l) : u.start ∈ N ∧ u.finish ∈ N :=
  ⟨S.nodes (.inl ⟨u, hu, .inl rfl⟩), S.nodes (.inl ⟨u, hu, .inr rfl⟩)⟩

theorem Same.vertex {k : Contour K} (hk : k.edgeList ⊆ l) {p : Point K} (hp : p ∈ k.vertices) : p ∈ N := by
  obtain ⟨e, he, rfl⟩ := mem_vertices_edge hp
  exact (S.endpoint (hk he)).2

theorem Same.piece {u : Segment K} (hu : u ∈ l) (hn : u.Nondegenerate) : u ∈ pieces N l :=
  ⟨hn, (S.endpoint hu).1, (S.endpoint hu).2, u, hu, subset_rfl⟩

theorem Same.segments (k : Contour K) : c.contourSegments k = d.contourSegments k := by
  rw [S.on.contourSegments, S.exact.contourSegments]

theorem Same.segmentBox (s : Segment K) : c.segmentBox s = d.segmentBox s :=
  (S.on.segmentBox s).unique (S.exact.segmentBox s)

theorem Same.segmentsBox {s : List (Segment K)} (h : s ≠ []) : c.segmentsBox s = d.segmentsBox s :=
  (S.on.segmentsBox s h).unique (S.exact.segmentsBox s h)

theorem Same.contourBox {k : Contour K} (h : k.Drawn) : c.contourBox k = d.contourBox k :=
  (S.on.contourBox k h.1).unique (S.exact.contourBox k h.1)

theorem Same.contoursBox {m : Multiregion K} (h : Multiregion.Drawn m) (hn : m ≠ []) :
    c.contoursBox m = d.contoursBox m :=
  (S.on.contoursBox m hn fun k hk => (h k hk).1).unique (S.exact.contoursBox m hn fun k hk => (h k hk).1)

theorem Same.polygonBox {g : Polygon K} (h : g.Drawn) : c.polygonBox g = d.polygonBox g :=
  (S.on.polygonBox g h.1.1).unique (S.exact.polygonBox g h.1.1)

theorem Same.polygonsBox {m : Multipolygon K} (h : m.Drawn) (hn : m.polygons ≠ []) :
    c.polygonsBox m.polygons = d.polygonsBox m.polygons :=
  (S.on.polygonsBox _ hn fun k hk => (h k hk).1.1).unique (S.exact.polygonsBox _ hn fun k hk => (h k hk).1.1)

theorem Same.orientation {k : Contour K} (hk : k.edgeList ⊆ l) : contour.orientation k c = contour.orientation k d := by
  have hv : ∀ p ∈ k.vertices, p ∈ N := fun p hp => S.vertex hk hp
  unfold contour.orientation
  cases hk : k.vertices with
  | nil => rfl
  | cons v rest =>
    rw [hk] at hv
    simp only [bind, Except.bind]
    cases h1 : pyGet (v :: rest) (contour.minIndex rest 1 0 v - 1 : Int) with
    | error => rfl
    | ok a =>
      cases h2 : pyGet (v :: rest) (contour.minIndex rest 1 0 v : Int) with
      | error => rfl
      | ok b =>
        cases h3 : pyGet (v :: rest) ((contour.minIndex rest 1 0 v + 1 : Int) % (v :: rest).length) with
        | error => rfl
        | ok e =>
          simp only
          rw [S.agree.orientation _ (hv _ (pyGet_mem h1)) _ (hv _ (pyGet_mem h2)) _ (hv _ (pyGet_mem h3))]

theorem Same.oriented {k : Contour K} (hk : k.edgeList ⊆ l) (b : Bool) :
    region.toOrientedSegments k c b = region.toOrientedSegments k d b := by
  unfold region.toOrientedSegments contour.toOrientedEdgesEndpoints
  rw [S.orientation hk]

theorem Same.oriented' {k : Contour K} (hk : k.edgeList ⊆ l) (b : Bool) :
    contour.toOrientedEdgesEndpoints k c b = contour.toOrientedEdgesEndpoints k d b := S.oriented hk b

theorem Same.equal {k k' : Contour K} (hk : k.edgeList ⊆ l) (hk' : k'.edgeList ⊆ l) :
    contour.equal k k' c = contour.equal k k' d := by
  unfold contour.equal
  rw [S.orientation hk, S.orientation hk']

theorem Same.multiregionOriented {m : Multiregion K} (hm : Multiregion.edgeList m ⊆ l) (b : Bool) :
    multiregion.toOrientedEdgesEndpoints m c b = multiregion.toOrientedEdgesEndpoints m d b := by
  induction m with
  | nil => rfl
  | cons k m ih =>
    have h1 : Contour.edgeList k ⊆ l := fun e he => hm (List.mem_flatMap.mpr ⟨k, by simp, he⟩)
    have h2 : Multiregion.edgeList m ⊆ l := fun e he => by
      obtain ⟨k', hk', he⟩ := List.mem_flatMap.mp he
      exact hm (List.mem_flatMap.mpr ⟨k', by simp [hk'], he⟩)
    unfold multiregion.toOrientedEdgesEndpoints
    rw [S.oriented h1, ih h2]

theorem Same.polygonOriented {g : Polygon K} (hg : g.edgeList ⊆ l) (b : Bool) :
    polygon.toOrientedEdgesEndpoints g c b = polygon.toOrientedEdgesEndpoints g d b := by
  unfold polygon.toOrientedEdgesEndpoints
  rw [S.oriented fun e he => hg (List.mem_append_left _ he),
    S.multiregionOriented fun e he => hg (List.mem_append_right _ he)]

theorem Same.multipolygonOriented {m : Multipolygon K} (hm : m.edgeList ⊆ l) (b : Bool) :
    multipolygon.toOrientedSegments m c b = multipolygon.toOrientedSegments m d b := by
  obtain ⟨gs⟩ := m
  unfold multipolygon.toOrientedSegments
  simp only
  replace hm : ∀ g ∈ gs, g.edgeList ⊆ l := fun g hg e he => hm (List.mem_flatMap.mpr ⟨g, hg, he⟩)
  induction gs with
  | nil => rfl
  | cons g gs ih =>
    unfold multipolygon.orientedSegmentsOf
    rw [S.polygonOriented (hm g (by simp)), ih fun g' hg' => hm g' (by simp [hg'])]

/-! ### sweeps -/

open eventsQueue processing

omit S in
theorem Registered.tame {s : State K} {G T : List (Segment K)} (h : Registered s G T) (hG : G ⊆ l) (hT : T ⊆ l) :
    State.Tame (nodes_finite l).toFinset l s := by
  have key : ∀ i < s.nextLeft, ∃ t ∈ l, (s.seg i).pts = t.pts := by
    intro i hi
    cases hb : (s.lefts i).fromTest with
    | false =>
      have : (s.seg i).pts ∈ G.map Segment.pts := h.goal.mem_iff.mp
        (List.mem_map_of_mem (State.mem_segs.mpr ⟨i, hi, hb, rfl⟩))
      obtain ⟨t, ht, e⟩ := List.mem_map.mp this
      exact ⟨t, hG ht, e.symm⟩
    | true =>
      have : (s.seg i).pts ∈ T.map Segment.pts := h.test.mem_iff.mp
        (List.mem_map_of_mem (State.mem_segs.mpr ⟨i, hi, hb, rfl⟩))
      obtain ⟨t, ht, e⟩ := List.mem_map.mp this
      exact ⟨t, hT ht, e.symm⟩
  have ends : ∀ i < s.nextLeft, ∀ p, (s.seg i).IsEndpoint p → p ∈ (nodes_finite l).toFinset := by
    intro i hi p hp
    obtain ⟨t, ht, e⟩ := key i hi
    rw [Set.Finite.mem_toFinset]
    exact .inl ⟨t, ht, Props.endpoint_of_subset e.symm.subset (e ▸ hp.mem) hp⟩
  refine ⟨h.fresh.wf, ⟨fun i hi => ends i hi _ (.inl rfl), fun i hi => ends i hi _ (.inr rfl), ?_⟩,
    fun i hi => (key i hi).imp fun t ht => ⟨ht.1, ht.2.subset⟩⟩
  intro i hi j hj hn p hp hp'
  obtain ⟨t, ht, e⟩ := key i hi
  obtain ⟨g, hg, e'⟩ := key j hj
  rw [Set.Finite.mem_toFinset]
  refine .inr ⟨t, ht, g, hg, ?_⟩
  rw [← e, ← e']
  ext q
  refine ⟨fun hq => ?_, ?_⟩
  · by_contra hne
    exact hn (Segment.collinear_of_nontrivial (h.fresh.wf.nondegenerate hj) ⟨q, hq, p, ⟨hp, hp'⟩, hne⟩)
  · rintro rfl
    exact ⟨hp, hp'⟩

theorem Same.agree' : Agree c d (↑(nodes_finite l).toFinset) l :=
  S.agree.mono (by rw [Set.Finite.coe_toFinset]; exact S.nodes) (List.Subset.refl _)

variable {s : State K} {G T : List (Segment K)}

theorem Same.runOpenLinear (al : Alike c d N) (h : Registered s G T) (hG : G ⊆ l) (hT : T ⊆ l) (x : K) :
    runOpenLinear c s x = runOpenLinear d s x := by
  have al' : Alike c d (↑(nodes_finite l).toFinset) :=
    al.mono (by rw [Set.Finite.coe_toFinset]; exact S.nodes)
  obtain ⟨h1, h2⟩ := sweep_agree S.agree' (linear := true) (fun _ => al') S.exact x (h.tame hG hT)
  unfold Orient.runOpenLinear
  rw [h1]
  unfold processOpenLinearQueue
  cases hs : (sweep true d x s).2 with
  | error e => rfl
  | ok t =>
    simp only [bind, Except.bind]
    rw [peekFromTest_agree S.agree' (h2 t hs)]

theorem Same.runClosedLinear (h : Registered s G T) (hG : G ⊆ l) (hT : T ⊆ l) (x : K) :
    runClosedLinear c s x = runClosedLinear d s x := by
  obtain ⟨h1, h2⟩ := sweep_agree S.agree' (linear := false) (by simp) S.exact x (h.tame hG hT)
  unfold Orient.runClosedLinear
  rw [h1]
  unfold processClosedLinearQueue
  cases hs : (sweep false d x s).2 with
  | error e => rfl
  | ok t =>
    simp only [bind, Except.bind]
    rw [peekFromTest_agree S.agree' (h2 t hs)]

theorem Same.runLinearCompound (h : Registered s G T) (hG : G ⊆ l) (hT : T ⊆ l) (x : K) :
    runLinearCompound c s x = runLinearCompound d s x := by
  obtain ⟨h1, h2⟩ := sweep_agree S.agree' (linear := false) (by simp) S.exact x (h.tame hG hT)
  unfold Orient.runLinearCompound
  rw [h1]
  unfold processLinearCompoundQueue
  cases hs : (sweep false d x s).2 with
  | error e => rfl
  | ok t =>
    simp only [bind, Except.bind]
    rw [peekFromTest_agree S.agree' (h2 t hs)]

theorem Same.runCompound (h : Registered s G T) (hG : G ⊆ l) (hT : T ⊆ l) (x : K) :
    runCompound c s x = runCompound d s x := by
  obtain ⟨h1, h2⟩ := sweep_agree S.agree' (linear := false) (by simp) S.exact x (h.tame hG hT)
  unfold Orient.runCompound
  rw [h1]
  unfold processCompoundQueue
  cases hs : (sweep false d x s).2 with
  | error e => rfl
  | ok t =>
    simp only [bind, Except.bind]
    rw [peekFromTest_agree S.agree' (h2 t hs)]

omit S in
theorem registerParts_congr {α : Type} {boxOf boxOf' : α → Box K}
    {segmentsOf segmentsOf' : α → Py (List (SegmentEndpoints K))} {b b' : Box K} {t t' : Py (List (SegmentEndpoints K))}
    {parts : List α} (h1 : ∀ p ∈ parts, boxOf p = boxOf' p) (h2 : ∀ p ∈ parts, segmentsOf p = segmentsOf' p)
    (h3 : b = b') (h4 : t = t') (nd : Bool) (acc : Option (K × State K)) :
    registerParts boxOf segmentsOf b t parts nd acc = registerParts boxOf' segmentsOf' b' t' parts nd acc := by
  subst h3 h4
  induction parts generalizing nd acc with
  | nil => rfl
  | cons p parts ih =>
    have ih := ih (fun q hq => h1 q (by simp [hq])) fun q hq => h2 q (by simp [hq])
    unfold registerParts
    simp only [h1 p (by simp), h2 p (by simp), ih]

omit S in
/-- Functions which register parts and then sweep. -/
theorem registerParts_bind {α β : Type} {boxOf : α → Box K} {E : α → List (Segment K)}
    {segmentsOf : α → Py (List (SegmentEndpoints K))} {testBox : Box K} {test : Py (List (SegmentEndpoints K))}
    (ht : ∃ l, test = .ok l ∧ Matches l T) (hT : ∀ u ∈ T, u.Nondegenerate) {parts : List α}
    (hp : ∀ p ∈ parts, (∃ l, segmentsOf p = .ok l ∧ Matches l (E p)) ∧ ∀ u ∈ E p, u.Nondegenerate)
    {f g : Bool × Option (K × State K) → Py β} (hnone : ∀ nd, f (nd, none) = g (nd, none))
    (hsome : ∀ nd m s, ∀ G : List (Segment K), G ⊆ parts.flatMap E → Registered s G T →
      f (nd, some (m, s)) = g (nd, some (m, s))) :
    (registerParts boxOf segmentsOf testBox test parts true none >>= f) =
      (registerParts boxOf segmentsOf testBox test parts true none >>= g) := by
  obtain ⟨l, rfl, hl⟩ := ht
  obtain ⟨acc, h1, h2⟩ := registerParts_spec boxOf E T (testBox := testBox) hl hT parts hp true [] none rfl
  rw [h1]
  cases acc with
  | none => exact hnone _
  | some q =>
    refine hsome _ _ _ _ ?_ h2.1
    intro e he
    obtain ⟨p, hp, he⟩ := List.mem_flatMap.mp he
    have hp : p ∈ kept boxOf testBox parts := by simpa using hp
    unfold kept at hp
    exact List.mem_flatMap.mpr ⟨p, (List.mem_filter.mp hp).1, he⟩

/-! ### functions that do not sweep -/

theorem Same.locateSegment {u : Segment K} (hu : u ∈ l) {p : Point K} (hp : p ∈ N) :
    segment.locatePoint u p c = segment.locatePoint u p d := by
  unfold segment.locatePoint
  rw [S.agree.contains u hu p hp]

theorem Same.relateSegments {u v : Segment K} (hu : u ∈ pieces N l) (hv : v ∈ pieces N l) :
    segment.relateSegment u v c = segment.relateSegment u v d := S.agree.relation v hv u hu

theorem Same.locateMultisegment {m : Multisegment K} (hm : m.segments ⊆ l) {p : Point K} (hp : p ∈ N) :
    multisegment.locatePoint m p c = multisegment.locatePoint m p d := by
  unfold multisegment.locatePoint
  have : m.segments.all (fun s => decide (segment.locatePoint s p c = Location.exterior)) =
      m.segments.all (fun s => decide (segment.locatePoint s p d = Location.exterior)) := by
    rw [Bool.eq_iff_iff, List.all_eq_true, List.all_eq_true]
    exact forall₂_congr fun u hu => by rw [S.locateSegment (hm hu) hp]
  rw [this]

theorem Same.locateContour {k : Contour K} (hk : k.edgeList ⊆ l) {p : Point K} (hp : p ∈ N) :
    contour.locatePoint k p c = contour.locatePoint k p d := by
  have := S.locateMultisegment (m := ⟨k.edgeList⟩) hk hp
  unfold multisegment.locatePoint at this
  unfold contour.locatePoint
  rw [S.on.contourSegments, S.exact.contourSegments]
  exact this

theorem Same.crossesAtVertex {u : Segment K} (hu : u.start ∈ N ∧ u.finish ∈ N) {a b e : Point K} (ha : a ∈ N)
    (hb : b ∈ N) (he : e ∈ N) : contour.crossesAtVertex c u a b e = contour.crossesAtVertex d u a b e := by
  unfold contour.crossesAtVertex contour.pointVertexLineDividesAngle
  rw [S.agree.orientation _ hu.1 _ hu.2 _ hb, S.agree.orientation _ hb _ ha _ hu.1,
    S.agree.orientation _ hb _ hu.1 _ he]

theorem Same.contourLoop {u : Segment K} (hu : u ∈ pieces N l) {es : List (Segment K)}
    (hes : ∀ e ∈ es, e ∈ pieces N l) (i : Int) {st : contour.LoopState K} (hst : ∀ q ∈ st.last, q.2 ∈ N) :
    contour.loop c u i es st = contour.loop d u i es st ∧
    ∀ st', contour.loop d u i es st = .inr st' → ∀ q ∈ st'.last, q.2 ∈ N := by
  induction es generalizing i st with
  | nil =>
    refine ⟨rfl, fun st' h => ?_⟩
    cases h
    exact hst
  | cons e es ih =>
    have he := hes e (by simp)
    have ih := fun i {st} => ih (fun x hx => hes x (by simp [hx])) i (st := st)
    have step : contour.loopStep c u i e st = contour.loopStep d u i e st := by
      unfold contour.loopStep
      simp only [S.relateSegments he hu]
      cases hl : st.last with
      | none => rfl
      | some q => simp only [S.crossesAtVertex ⟨hu.2.1, hu.2.2.1⟩ (hst q (by simp [hl])) he.2.1 he.2.2.1]
    have keep : ∀ st', contour.loopStep d u i e st = .inr st' → ∀ q ∈ st'.last, q.2 ∈ N := by
      intro st' h
      unfold contour.loopStep at h
      simp only at h
      split_ifs at h with h1 h2 h3 h4 h5
      all_goals first
        | (cases h; done)
        | (cases h; intro q hq; simp only [Option.mem_def, Option.some.injEq] at hq; subst hq; exact he.2.1)
        | (cases h; exact hst)
    unfold contour.loop
    rw [step]
    cases hs : contour.loopStep d u i e st with
    | inl r => exact ⟨rfl, fun st' h => by cases h⟩
    | inr st' => exact ih _ (keep st' hs)

omit S in
theorem edge_of_pyGet {k : Contour K} {a b : Point K} (ha : pyGet k.vertices (-1) = .ok a)
    (hb : pyGet k.vertices 0 = .ok b) : (⟨a, b⟩ : Segment K) ∈ k.edgeList := by
  have hne : k.vertices ≠ [] := List.ne_nil_of_mem (pyGet_mem ha)
  have hpos := List.length_pos_of_ne_nil hne
  have h1 := pyGet_neg k.vertices 0 hpos
  have h2 := pyGet_of_lt k.vertices 0 hpos
  simp only [Nat.cast_zero, neg_zero, zero_sub, Nat.sub_zero] at h1 h2
  rw [h1] at ha
  rw [h2] at hb
  cases ha
  cases hb
  have hl : 0 < k.edgeList.length := by simp [Contour.edgeList, hpos]
  refine List.mem_iff_getElem.mpr ⟨0, hl, ?_⟩
  simp [Contour.edgeList, List.getElem_rotate]

theorem Same.contourRelateSegment {k : Contour K} (hk : k.edgeList ⊆ l) (dk : k.Drawn) {u : Segment K} (hu : u ∈ l)
    (nu : u.Nondegenerate) : contour.relateSegment k u c = contour.relateSegment k u d := by
  have pu := S.piece hu nu
  obtain ⟨h1, h2⟩ := S.contourLoop pu (es := k.edgeList) (fun e he => S.piece (hk he) (dk.2 e he)) 0
    (st := { hasNoTouch := true, hasNoCross := true, last := none }) (by simp)
  unfold contour.relateSegment
  rw [S.on.contourSegments, S.exact.contourSegments, h1]
  cases hs : contour.loop d u 0 k.edgeList { hasNoTouch := true, hasNoCross := true, last := none } with
  | inl r => rfl
  | inr st =>
    simp only
    split
    · cases ha : pyGet k.vertices (-1) with
      | error => rfl
      | ok a =>
        cases hb : pyGet k.vertices 0 with
        | error => rfl
        | ok b =>
          have hab := edge_of_pyGet ha hb
          simp only [bind, Except.bind]
          rw [S.relateSegments (S.piece (hk hab) (dk.2 _ hab)) pu]
          cases he : pyGet k.vertices (-2) with
          | error => rfl
          | ok e =>
            simp only
            rw [S.crossesAtVertex ⟨pu.2.1, pu.2.2.1⟩ (S.vertex hk (pyGet_mem he)) (S.vertex hk (pyGet_mem ha))
              (S.vertex hk (pyGet_mem hb))]
    · rfl

theorem Same.regionLoop {u : Segment K} (hu : u ∈ pieces N l) {es : List (Segment K)}
    (hes : ∀ e ∈ es, e ∈ pieces N l) (i : Int) {st : region.LoopState K} (hst : ∀ q ∈ st.last, q.2 ∈ N) :
    region.loop c u i es st = region.loop d u i es st := by
  induction es generalizing i st with
  | nil => rfl
  | cons e es ih =>
    have he := hes e (by simp)
    have ih := fun i {st} => ih (fun x hx => hes x (by simp [hx])) i (st := st)
    have step : region.loopStep c u i e st = region.loopStep d u i e st := by
      unfold region.loopStep
      simp only [S.relateSegments he hu]
      cases hl : st.last with
      | none => rfl
      | some q => simp only [S.crossesAtVertex ⟨hu.2.1, hu.2.2.1⟩ (hst q (by simp [hl])) he.2.1 he.2.2.1]
    have keep : ∀ st', region.loopStep d u i e st = .inr st' → ∀ q ∈ st'.last, q.2 ∈ N := by
      intro st' h
      unfold region.loopStep at h
      simp only at h
      split at h
      · cases h
      · split at h
        · cases h; exact hst
        · split at h
          · have last : ∀ q ∈ some (i, e.start), q.2 ∈ N := by
              intro q hq
              simp only [Option.mem_def, Option.some.injEq] at hq
              subst hq
              exact he.2.1
            split at h
            · cases h; exact last
            · split at h
              · cases h; exact last
              · split at h
                · cases h
                · cases h; exact last
          · split at h
            · cases h
            · cases h; exact hst
    unfold region.loop
    rw [step]
    cases hs : region.loopStep d u i e st with
    | inl r => rfl
    | inr st' => exact ih _ (keep st' hs)

theorem Same.relateSegmentToContour {k : Contour K} (hk : k.edgeList ⊆ l) (dk : k.Drawn) {u : Segment K} (hu : u ∈ l)
    (nu : u.Nondegenerate) : region.relateSegmentToContour k u c = region.relateSegmentToContour k u d := by
  have pu := S.piece hu nu
  have h1 := S.regionLoop pu (es := k.edgeList) (fun e he => S.piece (hk he) (dk.2 e he)) 0
    (st := { hasNoTouch := true, hasNoOverlap := true, last := none }) (by simp)
  unfold region.relateSegmentToContour
  rw [S.on.contourSegments, S.exact.contourSegments, h1]
  cases hs : region.loop d u 0 k.edgeList { hasNoTouch := true, hasNoOverlap := true, last := none } with
  | inl r => rfl
  | inr st =>
    simp only
    split
    · cases ha : pyGet k.vertices (-1) with
      | error => rfl
      | ok a =>
        cases hb : pyGet k.vertices 0 with
        | error => rfl
        | ok b =>
          have hab := edge_of_pyGet ha hb
          simp only [bind, Except.bind]
          rw [S.relateSegments (S.piece (hk hab) (dk.2 _ hab)) pu]
          cases he : pyGet k.vertices (-2) with
          | error => rfl
          | ok e =>
            simp only
            rw [S.crossesAtVertex ⟨pu.2.1, pu.2.2.1⟩ (S.vertex hk (pyGet_mem he)) (S.vertex hk (pyGet_mem ha))
              (S.vertex hk (pyGet_mem hb))]
    · rfl

theorem Same.locateIndexed {k : Contour K} (hk : k.edgeList ⊆ l) {p : Point K} (hp : p ∈ N) :
    region.locatePointIndexed k p c = region.locatePointIndexed k p d := by
  have key : ∀ es : List (Segment K), es ⊆ l → ∀ i b,
      region.locateLoop c p i es b = region.locateLoop d p i es b := by
    intro es
    induction es with
    | nil => exact fun _ _ _ => rfl
    | cons e es ih =>
      intro hes i b
      have he : e ∈ l := hes (by simp)
      have ih := ih fun x hx => hes (by simp [hx])
      unfold region.locateLoop region.rayCrosses
      rw [S.locateSegment he hp, S.agree.orientation _ (S.endpoint he).1 _ (S.endpoint he).2 _ hp, ih]
  unfold region.locatePointIndexed
  rw [S.on.contourSegments, S.exact.contourSegments, key _ hk]

theorem Same.locateRegion {k : Contour K} (hk : k.edgeList ⊆ l) {p : Point K} (hp : p ∈ N) :
    region.locatePoint k p c = region.locatePoint k p d := by
  unfold region.locatePoint
  rw [S.locateIndexed hk hp]

theorem Same.touchesAtStart {k : Contour K} (hk : k.edgeList ⊆ l) (o : Orientation) (i : Int) (p : Point K)
    {q : Point K} (hq : q ∈ N) :
    region.touchesAtStart c k.vertices o i p q = region.touchesAtStart d k.vertices o i p q := by
  have hv : ∀ {i a}, pyGet k.vertices i = .ok a → a ∈ N := fun h => S.vertex hk (pyGet_mem h)
  unfold region.touchesAtStart
  simp only [bind, Except.bind]
  cases ha : pyGet k.vertices (i - 1) with
  | error => rfl
  | ok a =>
    cases hb : pyGet k.vertices i with
    | error => rfl
    | ok b =>
      have na := hv ha
      have nb := hv hb
      have first : ∀ {e}, e ∈ N → c.angleOrientation e a b = d.angleOrientation e a b ∧
          c.angleOrientation a e q = d.angleOrientation a e q := fun ne =>
        ⟨S.agree.orientation _ ne _ na _ nb, S.agree.orientation _ na _ ne _ hq⟩
      have second : ∀ {e}, e ∈ N → c.angleOrientation a b e = d.angleOrientation a b e ∧
          c.angleOrientation e b q = d.angleOrientation e b q := fun ne =>
        ⟨S.agree.orientation _ na _ nb _ ne, S.agree.orientation _ ne _ nb _ hq⟩
      simp only [S.agree.orientation _ nb _ na _ hq]
      split
      · split
        · cases he : pyGet k.vertices (i - 2) with
          | error => rfl
          | ok e => simp only [first (hv he)]
        · simp only [first nb]
      · split
        · split
          · cases he : pyGet k.vertices ((i + 1) % k.vertices.length) with
            | error => rfl
            | ok e => simp only [second (hv he)]
          · cases he : pyGet k.vertices (k.vertices.length - i - 3) with
            | error => rfl
            | ok e => simp only [second (hv he)]
        · rfl

theorem Same.touchesAtEnd {k : Contour K} (hk : k.edgeList ⊆ l) (o : Orientation) (i : Int) (p : Point K)
    {q : Point K} (hq : q ∈ N) :
    region.touchesAtEnd c k.vertices o i q p = region.touchesAtEnd d k.vertices o i q p := by
  have hv : ∀ {i a}, pyGet k.vertices i = .ok a → a ∈ N := fun h => S.vertex hk (pyGet_mem h)
  unfold region.touchesAtEnd
  simp only [bind, Except.bind]
  cases ha : pyGet k.vertices (i - 1) with
  | error => rfl
  | ok a =>
    cases hb : pyGet k.vertices i with
    | error => rfl
    | ok b =>
      have na := hv ha
      have nb := hv hb
      have first : ∀ {e}, e ∈ N → c.angleOrientation e a b = d.angleOrientation e a b ∧
          c.angleOrientation a e q = d.angleOrientation a e q := fun ne =>
        ⟨S.agree.orientation _ ne _ na _ nb, S.agree.orientation _ na _ ne _ hq⟩
      have second : ∀ {e}, e ∈ N → c.angleOrientation a b e = d.angleOrientation a b e ∧
          c.angleOrientation e b q = d.angleOrientation e b q := fun ne =>
        ⟨S.agree.orientation _ na _ nb _ ne, S.agree.orientation _ ne _ nb _ hq⟩
      simp only [S.agree.orientation _ nb _ na _ hq]
      split
      · split
        · cases he : pyGet k.vertices (i - 2) with
          | error => rfl
          | ok e => simp only [first (hv he)]
        · simp only [first nb]
      · split
        · split
          · cases he : pyGet k.vertices ((i + 1) % k.vertices.length) with
            | error => rfl
            | ok e => simp only [second (hv he)]
          · cases he : pyGet k.vertices (k.vertices.length - i - 3) with
            | error => rfl
            | ok e => simp only [second (hv he)]
        · rfl

theorem Same.regionRelateSegment {k : Contour K} (hk : k.edgeList ⊆ l) (dk : k.Drawn) {u : Segment K} (hu : u ∈ l)
    (nu : u.Nondegenerate) : region.relateSegment k u c = region.relateSegment k u d := by
  unfold region.relateSegment
  simp only [S.relateSegmentToContour hk dk hu nu, S.locateIndexed hk (S.endpoint hu).1,
    S.locateIndexed hk (S.endpoint hu).2, S.orientation hk, S.touchesAtStart hk _ _ _ (S.endpoint hu).2,
    S.touchesAtEnd hk _ _ _ (S.endpoint hu).1]

end Orient
