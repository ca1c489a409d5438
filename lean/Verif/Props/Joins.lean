import Verif.Lemmas.Joining
import Verif.Props.CompositionExamples

/-! C57, C58: relations of geometries which consist of several parts. -/

set_option linter.unusedSectionVars false

namespace Orient.Props

variable {K : Type} [Field K] [LinearOrder K] [IsStrictOrderedRing K]

section

variable {context : Context K} (hc : context.Exact)

include hc

/-! ### linear geometries -/

/-- C57: the relation of a linear geometry to an areal one is determined by the relations of its pieces. -/
theorem C57_lines {a : Line K} {pieces : List (Line K)} {b : Area K} (va : a.Valid) (vp : ∀ x ∈ pieces, x.Valid)
    (np : pieces ≠ []) (vb : b.Valid) (h : a.Suits b) (hp : ∀ x ∈ pieces, x.Suits b)
    (hl : ∀ p, a.locate context p = .boundary ↔ ∃ x ∈ pieces, x.locate context p = .boundary) (r : Relation) :
    a.relate context b = .ok r ↔ JoinOf (fun q => ∃ x ∈ pieces, x.relate context b = .ok q) r := by
  have e : (fun q => ∃ x ∈ pieces, x.relate context b = .ok q) =
      fun q => ∃ x, x ∈ pieces ∧ LinearLocations (x.locate context) (b.locate context) q := by
    ext q
    refine exists_congr fun x => and_congr_right fun hx => ?_
    exact C54_lines hc (vp x hx) vb (hp x hx) q
  rw [C54_lines hc va vb h, e]
  refine linearLocations_union hl (fun x hx => ?_) (fun x hx => ?_) (List.exists_mem_of_ne_nil _ np) r
  · exact line_inhabited hc (vp x hx) _ (by simp)
  · obtain ⟨r, hr⟩ := line_relate_total hc (vp x hx) vb (hp x hx)
    exact ⟨r, (C54_lines hc (vp x hx) vb (hp x hx) r).mp hr⟩

/-- C57: the relation of a multisegment to an areal geometry is determined by the relations of its segments. -/
theorem C57_multisegment {m : Multisegment K} {b : Area K} (vm : (Line.multisegment m).Valid) (vb : b.Valid)
    (h : (Line.multisegment m).Suits b) (hp : ∀ s ∈ m.segments, (Line.segment s).Suits b) (r : Relation) :
    (Line.multisegment m).relate context b = .ok r ↔
      JoinOf (fun q => ∃ s ∈ m.segments, (Line.segment s).relate context b = .ok q) r := by
  have k := C57_lines hc (a := .multisegment m) (pieces := m.segments.map .segment) vm
    (by simpa [Line.Valid] using fun s hs => vm.1.1 s hs) (by simpa using vm.2) vb h (by simpa using hp) (fun p => by
      rw [line_located hc]
      simp [Line.locate, segment_located hc, linePts, segsPts]) r
  simpa using k

/-- C57: the relation of a contour to an areal geometry is determined by the relations of its edges. -/
theorem C57_contour {c : Contour K} {b : Area K} (vc : c.Simple) (vb : b.Valid) (h : (Line.contour c).Suits b)
    (hp : ∀ s ∈ c.edgeList, (Line.segment s).Suits b) (r : Relation) :
    (Line.contour c).relate context b = .ok r ↔
      JoinOf (fun q => ∃ s ∈ c.edgeList, (Line.segment s).relate context b = .ok q) r := by
  have k := C57_lines hc (a := .contour c) (pieces := c.edgeList.map .segment) vc
    (by simpa [Line.Valid] using fun s hs => vc.valid.1 s hs)
    (by simpa using Contour.edgeList_ne_nil vc.ne_nil) vb h (by simpa using hp) (fun p => by
      rw [line_located hc]
      simp [Line.locate, segment_located hc, linePts, Contour.pts, segsPts]) r
  simpa using k

/-- C57: the relation of a multisegment is determined by the relation of the first segment and the relation of the
other ones. -/
theorem C57_step {s : Segment K} {m : List (Segment K)} {b : Area K} (vm : (Line.multisegment ⟨s :: m⟩).Valid)
    (nm : m ≠ []) (vb : b.Valid) (h : (Line.multisegment ⟨s :: m⟩).Suits b) (h1 : (Line.segment s).Suits b)
    (h2 : (Line.multisegment ⟨m⟩).Suits b) {q q' : Relation} (k : (Line.segment s).relate context b = .ok q)
    (k' : (Line.multisegment ⟨m⟩).relate context b = .ok q') (r : Relation) :
    (Line.multisegment ⟨s :: m⟩).relate context b = .ok r ↔ JoinOf (fun x => x = q ∨ x = q') r := by
  have k := C57_lines hc (a := .multisegment ⟨s :: m⟩) (pieces := [.segment s, .multisegment ⟨m⟩]) vm
    (by
      simp only [List.mem_cons, List.not_mem_nil, or_false, forall_eq_or_imp, forall_eq, Line.Valid]
      exact ⟨vm.1.1 s (by simp), ⟨fun t ht => vm.1.1 t (by simp [ht]), (List.pairwise_cons.mp vm.1.2).2⟩, nm⟩)
    (by simp) vb h (by simp [h1, h2]) (fun p => by
      rw [line_located hc]
      simp [Line.locate, segment_located hc, multisegment_located hc, linePts, segsPts]) r
  rw [k]
  simp only [List.mem_cons, List.not_mem_nil, or_false, exists_eq_or_imp, exists_eq_left, *, Except.ok.injEq]
  simp only [eq_comm]

/-! ### areal geometries -/

/-- C58: the relation of an areal geometry which consists of two parts. -/
theorem C58_areas {a a' u b : Area K} (va : a.Valid) (va' : a'.Valid) (vu : u.Valid) (vb : b.Valid) (h : a.Suits b)
    (h' : a'.Suits b) (hu : u.Suits b)
    (hl : ∀ p, PartLocations (a.locate context p) (a'.locate context p) (u.locate context p)) {r r' : Relation}
    (k : a.relate context b = .ok r) (k' : a'.relate context b = .ok r') :
    ∃ q ∈ r.unite r', u.relate context b = .ok q := by
  obtain ⟨q, hq⟩ := area_relate_total hc vu vb hu
  refine ⟨q, ?_, hq⟩
  rw [C54_areas hc va vb h] at k
  rw [C54_areas hc va' vb h'] at k'
  rw [C54_areas hc vu vb hu] at hq
  exact unite_of_consistent _ _ _ (consistentUnion_of_met hl k.met k'.met hq.met (area_inhabited hc va)
    (area_inhabited hc va') (area_inhabited hc vb))

omit hc [IsStrictOrderedRing K] in
theorem complement_complement (r : Relation) : r.complement.complement = r := by cases r <;> rfl

/-- C58: the relation to an areal geometry which consists of two parts. -/
theorem C58_right {a b b' u : Area K} (va : a.Valid) (vb : b.Valid) (vb' : b'.Valid) (vu : u.Valid) (h : a.Suits b)
    (h' : a.Suits b') (hu : a.Suits u)
    (hl : ∀ p, PartLocations (b.locate context p) (b'.locate context p) (u.locate context p)) {r r' : Relation}
    (k : a.relate context b = .ok r) (k' : a.relate context b' = .ok r') :
    ∃ q ∈ r.complement.unite r'.complement, a.relate context u = .ok q.complement := by
  obtain ⟨q, hq⟩ := area_relate_total hc va vu hu
  refine ⟨q.complement, ?_, by rw [complement_complement]; exact hq⟩
  rw [C54_areas hc va vb h, ← complement_complement r, arealLocations_complement] at k
  rw [C54_areas hc va vb' h', ← complement_complement r', arealLocations_complement] at k'
  rw [C54_areas hc va vu hu, ← complement_complement q, arealLocations_complement] at hq
  exact unite_of_consistent _ _ _ (consistentUnion_of_met hl k.met k'.met hq.met (area_inhabited hc vb)
    (area_inhabited hc vb') (area_inhabited hc va))

omit hc in
theorem partLocations_of {l l' l'' : Point K → Location} {I B E I' B' E' I'' B'' E'' : Set (Point K)}
    (h : Located l I B E) (h' : Located l' I' B' E') (h'' : Located l'' I'' B'' E'') (hi : I'' = I ∪ I')
    (hb : B'' = B ∪ B') (hii : ∀ p ∈ I, p ∉ I') (hib : ∀ p ∈ I, p ∉ B') (hbi : ∀ p ∈ B, p ∉ I') (p : Point K) :
    PartLocations (l p) (l' p) (l'' p) := by
  subst hi hb
  have := h.interior p
  have := h.boundary p
  have := h'.interior p
  have := h'.boundary p
  have := h''.interior p
  have := h''.boundary p
  have := hii p
  have := hib p
  have := hbi p
  unfold PartLocations
  cases e : l p <;> cases e' : l' p <;> cases e'' : l'' p <;> simp_all

/-- The first region and the other regions of a multiregion are parts of it. -/
theorem multiregion_cons_parts {c : Region K} {m : Multiregion K} (h : Multiregion.Valid (c :: m)) (p : Point K) :
    PartLocations ((Area.region c).locate context p) ((Area.multiregion m).locate context p)
      ((Area.multiregion (c :: m)).locate context p) := by
  have hm : Multiregion.Valid m := ⟨fun d hd => h.simple d (by simp [hd]), (List.pairwise_cons.mp h.apart).2⟩
  have s := h.split
  have hi : Multiregion.interior (c :: m) = Contour.interior c ∪ Multiregion.interior m := by
    ext p; simp [Multiregion.interior]
  have hb : Multiregion.pts (c :: m) = Contour.pts c ∪ Multiregion.pts m := by
    ext p; simp [Multiregion.pts]
  rw [hi, hb] at s
  refine partLocations_of (region_located hc (h.simple c (by simp))) (multiregion_located hc hm)
    (multiregion_located hc h) hi hb ?_ (fun p hp hp' => s.ib p (.inl hp) (.inr hp'))
    (fun p hp hp' => s.ib p (.inr hp') (.inl hp)) p
  rintro p hp ⟨d, hd, hp'⟩
  have := ((List.pairwise_cons.mp h.apart).1 d hd).1
  exact (Set.eq_empty_iff_forall_notMem.mp this p) ⟨hp, hp'⟩

/-- The first polygon and the other polygons of a multipolygon are parts of it. -/
theorem multipolygon_cons_parts {g : Polygon K} {m : List (Polygon K)} (h : (⟨g :: m⟩ : Multipolygon K).Valid)
    (p : Point K) : PartLocations ((Area.polygon g).locate context p) ((Area.multipolygon ⟨m⟩).locate context p)
      ((Area.multipolygon ⟨g :: m⟩).locate context p) := by
  have hm : (⟨m⟩ : Multipolygon K).Valid :=
    ⟨fun d hd => h.valid d (List.mem_cons_of_mem _ hd), (List.pairwise_cons.mp h.apart).2⟩
  have s := multipolygon_split h
  have hi : Multipolygon.interior ⟨g :: m⟩ = g.interior ∪ Multipolygon.interior ⟨m⟩ := by
    ext p; simp [Multipolygon.interior]
  have hb : Multipolygon.pts ⟨g :: m⟩ = g.pts ∪ Multipolygon.pts ⟨m⟩ := by
    ext p; simp [Multipolygon.pts]
  rw [hi, hb] at s
  refine partLocations_of (polygon_located hc (h.valid g (by simp))) (multipolygon_located hc hm)
    (multipolygon_located hc h) hi hb ?_ (fun p hp hp' => s.ib p (.inl hp) (.inr hp'))
    (fun p hp hp' => s.ib p (.inr hp') (.inl hp)) p
  rintro p hp ⟨d, hd, hp'⟩
  have := ((List.pairwise_cons.mp h.apart).1 d hd).1
  exact (Set.eq_empty_iff_forall_notMem.mp this p) ⟨hp, hp'⟩

omit hc in
theorem multiregion_cons_valid {c : Region K} {m : Multiregion K} (h : Multiregion.Valid (c :: m)) (nm : m ≠ []) :
    (Area.region c).Valid ∧ (Area.multiregion m).Valid ∧ (Area.multiregion (c :: m)).Valid :=
  ⟨h.simple c (by simp), ⟨⟨fun d hd => h.simple d (by simp [hd]), (List.pairwise_cons.mp h.apart).2⟩, nm⟩, h, by simp⟩

omit hc in
theorem multipolygon_cons_valid {g : Polygon K} {m : List (Polygon K)} (h : (⟨g :: m⟩ : Multipolygon K).Valid)
    (nm : m ≠ []) : (Area.polygon g).Valid ∧ (Area.multipolygon ⟨m⟩).Valid ∧ (Area.multipolygon ⟨g :: m⟩).Valid :=
  ⟨h.valid g (by simp), ⟨⟨fun d hd => h.valid d (List.mem_cons_of_mem _ hd), (List.pairwise_cons.mp h.apart).2⟩, nm⟩,
    h, by simp⟩

/-- C58: the relation of a multiregion from the relations of the first region and of the other ones. -/
theorem C58_multiregion {c : Region K} {m : Multiregion K} {b : Area K} (vm : Multiregion.Valid (c :: m))
    (nm : m ≠ []) (vb : b.Valid) (h : (Area.region c).Suits b) (h' : (Area.multiregion m).Suits b)
    (hu : (Area.multiregion (c :: m)).Suits b) {r r' : Relation} (k : (Area.region c).relate context b = .ok r)
    (k' : (Area.multiregion m).relate context b = .ok r') :
    ∃ q ∈ r.unite r', (Area.multiregion (c :: m)).relate context b = .ok q := by
  obtain ⟨v1, v2, v3⟩ := multiregion_cons_valid vm nm
  exact C58_areas hc v1 v2 v3 vb h h' hu (multiregion_cons_parts hc vm) k k'

/-- C58: the relation to a multiregion from the relations to the first region and to the other ones. -/
theorem C58_to_multiregion {a : Area K} {c : Region K} {m : Multiregion K} (va : a.Valid)
    (vm : Multiregion.Valid (c :: m)) (nm : m ≠ []) (h : a.Suits (.region c)) (h' : a.Suits (.multiregion m))
    (hu : a.Suits (.multiregion (c :: m))) {r r' : Relation} (k : a.relate context (.region c) = .ok r)
    (k' : a.relate context (.multiregion m) = .ok r') :
    ∃ q ∈ r.complement.unite r'.complement, a.relate context (.multiregion (c :: m)) = .ok q.complement := by
  obtain ⟨v1, v2, v3⟩ := multiregion_cons_valid vm nm
  exact C58_right hc va v1 v2 v3 h h' hu (multiregion_cons_parts hc vm) k k'

/-- C58: the relation of a multipolygon from the relations of the first polygon and of the other ones. -/
theorem C58_multipolygon {g : Polygon K} {m : List (Polygon K)} {b : Area K}
    (vm : (⟨g :: m⟩ : Multipolygon K).Valid) (nm : m ≠ []) (vb : b.Valid) (h : (Area.polygon g).Suits b)
    (h' : (Area.multipolygon ⟨m⟩).Suits b) (hu : (Area.multipolygon ⟨g :: m⟩).Suits b) {r r' : Relation}
    (k : (Area.polygon g).relate context b = .ok r) (k' : (Area.multipolygon ⟨m⟩).relate context b = .ok r') :
    ∃ q ∈ r.unite r', (Area.multipolygon ⟨g :: m⟩).relate context b = .ok q := by
  obtain ⟨v1, v2, v3⟩ := multipolygon_cons_valid vm nm
  exact C58_areas hc v1 v2 v3 vb h h' hu (multipolygon_cons_parts hc vm) k k'

/-- C58: the relation to a multipolygon from the relations to the first polygon and to the other ones. -/
theorem C58_to_multipolygon {a : Area K} {g : Polygon K} {m : List (Polygon K)} (va : a.Valid)
    (vm : (⟨g :: m⟩ : Multipolygon K).Valid) (nm : m ≠ []) (h : a.Suits (.polygon g))
    (h' : a.Suits (.multipolygon ⟨m⟩)) (hu : a.Suits (.multipolygon ⟨g :: m⟩)) {r r' : Relation}
    (k : a.relate context (.polygon g) = .ok r) (k' : a.relate context (.multipolygon ⟨m⟩) = .ok r') :
    ∃ q ∈ r.complement.unite r'.complement, a.relate context (.multipolygon ⟨g :: m⟩) = .ok q.complement := by
  obtain ⟨v1, v2, v3⟩ := multipolygon_cons_valid vm nm
  exact C58_right hc va v1 v2 v3 h h' hu (multipolygon_cons_parts hc vm) k k'

end

/-! ### cases -/

/-- C57 applies to the multisegment `sameX` and to a contour, with a multiregion and a multipolygon. -/
theorem C57_example : (∀ r, planar.multisegmentInMultiregion sameX sameM reference.context = .ok r ↔
      JoinOf (fun q => ∃ s ∈ sameX.segments, planar.segmentInMultiregion s sameM reference.context = .ok q) r) ∧
    ∀ r, planar.contourInMultipolygon sameT sameD reference.context = .ok r ↔
      JoinOf (fun q => ∃ s ∈ sameT.edgeList, planar.segmentInMultipolygon s sameD reference.context = .ok q) r := by
  have x := someLines_suit (.multisegment sameX) (by simp [someLines]) (.multiregion sameM) (by simp [someAreas])
  have t := someLines_suit (.contour sameT) (by simp [someLines]) (.multipolygon sameD) (by simp [someAreas])
  exact ⟨C57_multisegment ex (b := .multiregion sameM) (someLines_valid _ (by simp [someLines]))
      (someAreas_valid _ (by simp [someAreas])) x (fun s hs => x.1),
    C57_contour ex (b := .multipolygon sameD) same_simple.2.2.1 (someAreas_valid _ (by simp [someAreas])) t
      fun s hs => t⟩

/-- C58 applies: two regions overlap with a multiregion each, together they cover it. -/
theorem C58_example :
    let c : Contour ℚ := ⟨[⟨-1, -1⟩, ⟨9, -1⟩, ⟨9, 9⟩, ⟨-1, 9⟩]⟩
    let d : Contour ℚ := ⟨[⟨13, -1⟩, ⟨18, -1⟩, ⟨13, 4⟩]⟩
    planar.regionInMultiregion c sameN reference.context = .ok .overlap ∧
    planar.multiregionInMultiregion [d] sameN reference.context = .ok .overlap ∧
    (∃ q ∈ Relation.unite .overlap .overlap,
      planar.multiregionInMultiregion [c, d] sameN reference.context = .ok q) ∧
    planar.multiregionInMultiregion [c, d] sameN reference.context = .ok .cover := by
  intro c d
  have k : planar.regionInMultiregion c sameN reference.context = .ok .overlap := by decide +kernel
  have k' : planar.multiregionInMultiregion [d] sameN reference.context = .ok .overlap := by decide +kernel
  exact ⟨k, k', C58_multiregion ex (b := .multiregion sameN) (Multiregion.valid_of_check (by decide +kernel))
    (by simp) ⟨sameN_ok.1, by simp [sameN]⟩ trivial trivial trivial k k', by decide +kernel⟩

/-- C58 applies to the parts of the right operand. -/
theorem C58_example_right :
    planar.regionInRegion sameH sameQ reference.context = .ok .within ∧
    planar.regionInMultiregion sameH [sameU] reference.context = .ok .disjoint ∧
    planar.regionInMultiregion sameH sameN reference.context = .ok .within := by
  have k : planar.regionInRegion sameH sameQ reference.context = .ok .within := by decide +kernel
  have k' : planar.regionInMultiregion sameH [sameU] reference.context = .ok .disjoint := by decide +kernel
  refine ⟨k, k', ?_⟩
  obtain ⟨q, hq, h⟩ := C58_to_multiregion ex (a := .region sameH) same_simple.2.2.2.2.2.2.1 sameN_ok.1 (by simp)
    trivial trivial trivial k k'
  simp only [Relation.complement, Relation.unite, List.mem_singleton] at hq
  rw [hq] at h
  exact h

end Orient.Props
