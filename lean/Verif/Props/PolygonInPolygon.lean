import Verif.Props.MultiregionInPolygon

/-! C25: the relation of two polygons. -/

set_option linter.unusedSectionVars false

namespace Orient

variable {K : Type} [Field K] [LinearOrder K] [IsStrictOrderedRing K]

theorem IsBoxOf.unique {b b' : Box K} {S : Set (Point K)} (h : IsBoxOf b S) (h' : IsBoxOf b' S) :
    b = b' := by
  obtain ⟨p1, m1, e1⟩ := h.minX_mem
  obtain ⟨p2, m2, e2⟩ := h.maxX_mem
  obtain ⟨p3, m3, e3⟩ := h.minY_mem
  obtain ⟨p4, m4, e4⟩ := h.maxY_mem
  obtain ⟨q1, n1, f1⟩ := h'.minX_mem
  obtain ⟨q2, n2, f2⟩ := h'.maxX_mem
  obtain ⟨q3, n3, f3⟩ := h'.minY_mem
  obtain ⟨q4, n4, f4⟩ := h'.maxY_mem
  have a1 := h.minX_le _ n1
  have a2 := h.le_maxX _ n2
  have a3 := h.minY_le _ n3
  have a4 := h.le_maxY _ n4
  have b1 := h'.minX_le _ m1
  have b2 := h'.le_maxX _ m2
  have b3 := h'.minY_le _ m3
  have b4 := h'.le_maxY _ m4
  cases b; cases b'
  simp only [Box.mk.injEq] at *
  refine ⟨?_, ?_, ?_, ?_⟩ <;> apply le_antisymm <;> linarith

/-- A part of the border is outside of the holes. -/
theorem Polygon.Valid.border_exterior {g : Polygon K} (h : g.Valid) :
    (g.border.pts ∩ Multiregion.exterior g.holes).Nonempty := by
  by_contra hn
  have sh := h.holes.split
  have hd := h.holed
  have sub : g.border.pts ⊆ Multiregion.pts g.holes := fun x hx => by
    rcases sh.cover x with h' | h' | h'
    · exact absurd hx (hd.border.ib x (hd.inner x h'))
    · exact h'
    · exact absurd ⟨x, hx, h'⟩ hn
  obtain ⟨e, he⟩ := List.exists_mem_of_ne_nil _ (Contour.edgeList_ne_nil h.border.ne_nil)
  have key : SharesPiece (segsPts g.border.edgeList) (segsPts (edgesOf g.holes)) := by
    refine ⟨e, h.border.nondegenerate he, fun z hz => ⟨e, he, hz⟩, fun z hz => ?_⟩
    rw [segsPts_edgesOf]
    exact sub ⟨e, he, hz⟩
  obtain ⟨s, hs, t, ht, p, hp, q, hq, hne⟩ := (sharesPiece_segs_iff _ _).mp key
  obtain ⟨d, hd, ht⟩ := List.mem_flatMap.mp ht
  exact h.apart d hd ⟨⟨p, q⟩, hne, (Segment.pts_subset hp.1 hq.1).trans (subset_segsPts hs),
    (Segment.pts_subset hp.2 hq.2).trans (subset_segsPts ht)⟩

namespace Props

/-- A hole is inside of the border. -/
theorem hole_rel {g : Polygon K} (h : g.Valid) {d : Contour K} (hd : d ∈ g.holes) :
    RegionRel d g.border .within ∨ RegionRel d g.border .enclosed := by
  have hb : ∀ x ∈ Contour.pts d, x ∈ g.border.interior ∨ x ∈ g.border.pts := fun x hx =>
    h.holes_inside ⟨d, hd, hx⟩
  by_cases hm : (Contour.pts d ∩ g.border.pts).Nonempty
  · exact .inr ⟨h.inside d hd, hb, h.hole_meets hd, hm⟩
  · refine .inl ?_
    rintro x (hx | hx)
    · exact h.inside d hd hx
    · exact (hb x hx).resolve_right fun h' => hm ⟨x, hx, h'⟩

theorem RegionRel.border_outside {a b : Contour K} (ha : a.Simple) (hb : b.Simple)
    (h : RegionRel a b .within ∨ RegionRel a b .enclosed) : (b.pts ∩ a.exterior).Nonempty := by
  rcases h with h | h
  · exact ha.border_outside hb (.inl rfl) h
  · exact ha.border_outside hb (.inr rfl) h

/-- The relation of two polygons. -/
def PolygonRel (t g : Polygon K) (r : Relation) : Prop :=
  CompoundRel t.interior t.pts t.exterior g.interior g.pts g.exterior r

/-- What the loop over the holes knows about them. -/
structure SortedHoles (b : Contour K) (m S Q : List (Contour K)) (noneTouch : Bool) : Prop where
  inside : S.Sublist m
  outside : Q.Sublist m
  all : ∀ c ∈ m, c ∈ S ∨ c ∈ Q
  inner : ∀ c ∈ S, RegionRel c b .within ∨ RegionRel c b .enclosed
  outer : ∀ c ∈ Q, RegionRel c b .disjoint ∨ RegionRel c b .touch
  apart : noneTouch = true → ∀ c ∈ Q, RegionRel c b .disjoint
  touch : noneTouch = false → ∃ c ∈ Q, RegionRel c b .touch

theorem SortedHoles.outer_cons {b c : Contour K} {m S Q : List (Contour K)} {nt : Bool}
    (h : SortedHoles b m S Q nt) {r : Relation} (hr : r = .disjoint ∨ r = .touch) (hc : RegionRel c b r) :
    SortedHoles b (c :: m) S (c :: Q) (decide (r = .disjoint) && nt) := by
  refine ⟨h.inside.cons _, h.outside.cons_cons _, ?_, h.inner, ?_, ?_, ?_⟩
  · intro d hd
    rcases List.mem_cons.mp hd with rfl | hd
    · exact .inr List.mem_cons_self
    · exact (h.all d hd).imp_right (List.mem_cons_of_mem _)
  · intro d hd
    rcases List.mem_cons.mp hd with rfl | hd
    · rcases hr with rfl | rfl
      · exact .inl hc
      · exact .inr hc
    · exact h.outer d hd
  · intro e d hd
    rw [Bool.and_eq_true, decide_eq_true_eq] at e
    rcases List.mem_cons.mp hd with rfl | hd
    · exact e.1 ▸ hc
    · exact h.apart e.2 d hd
  · intro e
    rcases hr with rfl | rfl
    · obtain ⟨d, hd, h'⟩ := h.touch (by simpa using e)
      exact ⟨d, List.mem_cons_of_mem _ hd, h'⟩
    · exact ⟨c, List.mem_cons_self, hc⟩

theorem SortedHoles.inner_cons {b c : Contour K} {m S Q : List (Contour K)} {nt : Bool}
    (h : SortedHoles b m S Q nt) (hc : RegionRel c b .within ∨ RegionRel c b .enclosed) :
    SortedHoles b (c :: m) (c :: S) Q nt := by
  refine ⟨h.inside.cons_cons _, h.outside.cons _, ?_, ?_, h.outer, h.apart, h.touch⟩
  · intro d hd
    rcases List.mem_cons.mp hd with rfl | hd
    · exact .inl List.mem_cons_self
    · exact (h.all d hd).imp_left (List.mem_cons_of_mem _)
  · intro d hd
    rcases List.mem_cons.mp hd with rfl | hd
    · exact hc
    · exact h.inner d hd

/-- The outcomes of the loop over the holes. -/
def HolesLooped (b : Contour K) (m : List (Contour K)) (nt : Bool) (subs : List (Contour K))
    (x : Py (Relation ⊕ (Bool × List (Contour K)))) : Prop :=
  (∃ c ∈ m, ∃ r, RegionRel c b r ∧
    ((x = .ok (.inl .overlap) ∧ r = .overlap) ∨ (x = .ok (.inl .disjoint) ∧ r = .cover) ∨
      (x = .ok (.inl .touch) ∧ (r = .encloses ∨ r = .equal)))) ∨
  ∃ S Q nt', SortedHoles b m S Q nt' ∧ x = .ok (.inr (nt && nt', subs ++ S))

theorem HolesLooped.cons {b c : Contour K} {m : List (Contour K)} {nt nt' : Bool}
    {subs subs' : List (Contour K)} {x : Py (Relation ⊕ (Bool × List (Contour K)))}
    (h : HolesLooped b m nt' subs' x)
    (k : ∀ S Q n, SortedHoles b m S Q n → ∃ S' Q' n', SortedHoles b (c :: m) S' Q' n' ∧
      (nt' && n, subs' ++ S) = (nt && n', subs ++ S')) : HolesLooped b (c :: m) nt subs x := by
  rcases h with ⟨d, hd, x⟩ | ⟨S, Q, n, hs, x⟩
  · exact .inl ⟨d, List.mem_cons_of_mem _ hd, x⟩
  · obtain ⟨S', Q', n', hs', e'⟩ := k S Q n hs
    exact .inr ⟨S', Q', n', hs', by rw [x, e']⟩

theorem holesLoop_spec {context : Context K} (hc : context.Exact) {b : Contour K}
    (hb : b.Simple) (m : List (Contour K)) (hm : ∀ c ∈ m, Contour.Simple c) (nt : Bool)
    (subs : List (Contour K)) :
    HolesLooped b m nt subs (polygon.holesLoop b (context.contourBox b) context m nt subs) := by
  induction m generalizing nt subs with
  | nil =>
    refine .inr ⟨[], [], true, ⟨.slnil, .slnil, by simp, by simp, by simp, by simp, by simp⟩, ?_⟩
    simp [polygon.holesLoop]
  | cons c m ih =>
    obtain ⟨r, hr, h⟩ := C32_region_in_region hc (hm c List.mem_cons_self) hb
    have hr : region.relateRegionBoxed b c (context.contourBox b) (context.contourBox c) context = .ok r :=
      hr
    have ih := ih fun d hd => hm d (List.mem_cons_of_mem _ hd)
    rw [polygon.holesLoop, hr]
    simp only [bind, Except.bind, pure, Except.pure]
    cases r
    case disjoint =>
      exact (ih nt subs).cons fun S Q n hs => ⟨S, c :: Q, _, hs.outer_cons (.inl rfl) h, by simp⟩
    case touch =>
      exact (ih false subs).cons fun S Q n hs => ⟨S, c :: Q, _, hs.outer_cons (.inr rfl) h, by simp⟩
    case within =>
      exact (ih _ _).cons fun S Q n hs => ⟨c :: S, Q, _, hs.inner_cons (.inl h), by simp⟩
    case enclosed =>
      exact (ih _ _).cons fun S Q n hs => ⟨c :: S, Q, _, hs.inner_cons (.inr h), by simp⟩
    case overlap => exact .inl ⟨c, List.mem_cons_self, _, h, .inl ⟨rfl, rfl⟩⟩
    case cover => exact .inl ⟨c, List.mem_cons_self, _, h, .inr (.inl ⟨rfl, rfl⟩)⟩
    case encloses => exact .inl ⟨c, List.mem_cons_self, _, h, .inr (.inr ⟨rfl, .inl rfl⟩)⟩
    case equal => exact .inl ⟨c, List.mem_cons_self, _, h, .inr (.inr ⟨rfl, .inr rfl⟩)⟩
    case composite => exact absurd h ((hm c List.mem_cons_self).not_composite hb)
    case component => exact absurd h ((hm c List.mem_cons_self).not_component hb)
    case cross => exact h.elim

/-- The branch of `relatePolygon` for a polygon inside of the border of another one. -/
def innerAnswer (context : Context K) (goal test : Polygon K) (bordersRelation : Relation) : Py Relation := do
  if goal.holes ≠ [] then
    match ← polygon.holesLoop test.border (context.contourBox test.border) context goal.holes true [] with
    | .inl relation => return relation
    | .inr (noneTouch, subsets) =>
      if subsets ≠ [] then
        let holesRelation ← if test.holes ≠ []
          then Orient.multiregion.relateMultiregion test.holes subsets context
          else .ok .disjoint
        return match holesRelation with
          | .equal => if bordersRelation = .within then .enclosed else bordersRelation
          | .component | .enclosed => .enclosed
          | .within => bordersRelation
          | _ => .overlap
      else return if noneTouch then bordersRelation else .enclosed
  else return bordersRelation

/-- The case in which `polygon_in_polygon` takes `ENCLOSED` for `WITHIN`: a hole of the second polygon
touches the border of the first one from outside, while another one is inside of a hole of the first
polygon. -/
def Overlooked (t g : Polygon K) : Prop :=
  (∃ d ∈ g.holes, RegionRel d t.border .touch) ∧
  ∃ d ∈ g.holes, Contour.interior d ∪ Contour.pts d ⊆ Multiregion.interior t.holes

theorem innerAnswer_spec {context : Context K} (hc : context.Exact) {t g : Polygon K}
    (ht : t.Valid) (hg : g.Valid) (htc : t.Connected) (hgc : g.Connected) {rb : Relation}
    (hrb : rb = .within ∨ rb = .enclosed) (h : RegionRel t.border g.border rb) :
    ∃ r, innerAnswer context g t rb = .ok r ∧
      (PolygonRel t g r ∨ (r = .within ∧ Overlooked t g ∧ PolygonRel t g .enclosed)) := by
  have td := ht.holed
  have gd := hg.holed
  have hrel : RegionRel t.border g.border .within ∨ RegionRel t.border g.border .enclosed := by
    rcases hrb with rfl | rfl
    · exact .inl h
    · exact .inr h
  obtain ⟨hi, hb⟩ := RegionRel.enclosed_or hrel
  -- inner points of the bigger polygon outside of the smaller one
  obtain ⟨w, w1, w2⟩ : (g.interior ∩ t.border.exterior).Nonempty := by
    obtain ⟨v, v1, v2⟩ := RegionRel.border_outside ht.border hg.border hrel
    exact (hg.near ht.border.areal (.inl v1)).2 v2
  have inner : ∀ {r}, CompoundRel (t.border.interior ∩ Multiregion.exterior t.holes)
      (t.border.pts ∪ Multiregion.pts t.holes) (t.border.exterior ∪ Multiregion.interior t.holes)
      g.interior g.pts g.exterior r → PolygonRel t g r := fun h => h
  unfold innerAnswer
  by_cases hne : g.holes = []
  · refine ⟨rb, by simp [hne, pure, Except.pure], .inl ?_⟩
    obtain ⟨e1, e2, e3⟩ := Polygon.no_holes hne
    apply inner
    rw [e1, e2, e3]
    obtain ⟨⟨a1', a2', a3', a4'⟩, ⟨b1', b2', b3', b4'⟩, c1', c2'⟩ := td
    rcases hrb with rfl | rfl <;>
      simp only [RegionRel, CompoundRel, Set.subset_def, Set.eq_empty_iff_forall_notMem, Set.Nonempty,
        Set.mem_inter_iff, Set.mem_union, Set.ext_iff] at h ⊢ <;> grind
  rw [if_pos hne]
  -- overlapping follows from inner points of the first polygon on both sides of a hole
  have over : ∀ d ∈ g.holes, (t.interior ∩ Contour.interior d).Nonempty →
      (t.border.pts ∩ Contour.exterior d).Nonempty → PolygonRel t g .overlap := by
    rintro d hd ⟨x, x1, x2⟩ ⟨y, y1, y2⟩
    have hds := hg.holes.simple d hd
    obtain ⟨z, z1, z2⟩ := ht.meets htc (c := d) ⟨x, x1, x2⟩ ((ht.near hds.areal (.inl y1)).2 y2)
    obtain ⟨u, u1, u2⟩ := ((hg.near ht.areal (.inr ⟨d, hd, z1⟩)).1 z2).1
    exact ⟨⟨u, u2, u1⟩, ⟨x, x1, .inr ⟨d, hd, x2⟩⟩, ⟨w, .inl w2, w1⟩⟩
  rcases holesLoop_spec hc ht.border g.holes hg.holes.simple true [] with
    ⟨d, hd, r, hr, hx⟩ | ⟨S, Q, nt, hs, hx⟩
  · have hds := hg.holes.simple d hd
    have around := hole_around td gd (fun x hx => ⟨d, hd, hx⟩) (fun x hx => ⟨d, hd, hx⟩) hr
      ht.border.exists_mem hds.split
    rcases hx with ⟨hx, rfl⟩ | ⟨hx, rfl⟩ | ⟨hx, rfl | rfl⟩
    · refine ⟨.overlap, by simp [hx, bind, Except.bind, pure, Except.pure], .inl ?_⟩
      obtain ⟨h1, h2, h3⟩ := hr
      obtain ⟨z, z1, z2⟩ := hds.meets_inside h1 h2
      exact over d hd ((ht.near hds.areal (.inl z1)).1 z2).1 (hds.meets_outside ht.border h3)
    · exact ⟨.disjoint, by simp [hx, bind, Except.bind, pure, Except.pure], .inl around⟩
    · exact ⟨.touch, by simp [hx, bind, Except.bind, pure, Except.pure], .inl around⟩
    · exact ⟨.touch, by simp [hx, bind, Except.bind, pure, Except.pure], .inl around⟩
  obtain ⟨e1, e2, e3⟩ := multiregion_parts hs.inside hs.outside hs.all
  have hS := hg.holes.sublist hs.inside
  have hQ := hg.holes.sublist hs.outside
  have hx : polygon.holesLoop t.border (context.contourBox t.border) context g.holes true [] =
      .ok (.inr (nt, S)) := by simpa using hx
  simp only [hx, bind, Except.bind, pure, Except.pure]
  have qi : ∀ x, x ∈ t.border.interior ∨ x ∈ t.border.pts →
      x ∈ Multiregion.interior Q ∨ x ∈ Multiregion.pts Q → x ∈ t.border.pts ∧ x ∈ Multiregion.pts Q := by
    rintro x hx (⟨c, hcm, h⟩ | ⟨c, hcm, h⟩)
    · have := RegionRel.outer_or (hs.outer c hcm) ⟨.inl h, hx⟩
      exact ⟨this.2, c, hcm, this.1⟩
    · have := RegionRel.outer_or (hs.outer c hcm) ⟨.inr h, hx⟩
      exact ⟨this.2, c, hcm, this.1⟩
  have qi' : nt = true → ∀ x, x ∈ t.border.interior ∨ x ∈ t.border.pts →
      ¬ (x ∈ Multiregion.interior Q ∨ x ∈ Multiregion.pts Q) := by
    rintro hnt x hx (⟨c, hcm, h'⟩ | ⟨c, hcm, h'⟩)
    · have h : (Contour.interior c ∪ Contour.pts c) ∩ (t.border.interior ∪ t.border.pts) = ∅ :=
        hs.apart hnt c hcm
      exact Set.eq_empty_iff_forall_notMem.mp h x ⟨.inl h', hx⟩
    · have h : (Contour.interior c ∪ Contour.pts c) ∩ (t.border.interior ∪ t.border.pts) = ∅ :=
        hs.apart hnt c hcm
      exact Set.eq_empty_iff_forall_notMem.mp h x ⟨.inr h', hx⟩
  have parts : ∀ {r}, CompoundRel (t.border.interior ∩ Multiregion.exterior t.holes)
      (t.border.pts ∪ Multiregion.pts t.holes) (t.border.exterior ∪ Multiregion.interior t.holes)
      (g.border.interior ∩ (Multiregion.exterior S ∩ Multiregion.exterior Q))
      (g.border.pts ∪ (Multiregion.pts S ∪ Multiregion.pts Q))
      (g.border.exterior ∪ (Multiregion.interior S ∪ Multiregion.interior Q)) r → PolygonRel t g r := by
    intro r h
    rw [← e1, ← e2, ← e3] at h
    exact h
  have within : nt = true → rb = .within →
      (∀ x, x ∈ Multiregion.interior S ∨ x ∈ Multiregion.pts S → x ∈ Multiregion.interior t.holes) →
      PolygonRel t g .within := by
    rintro hnt rfl ob
    have h : t.border.interior ∪ t.border.pts ⊆ g.border.interior := h
    exact parts (inner_within td gd.border hS.split hQ.split (qi' hnt) (fun x hx => h hx) ob)
  have enclosed : (∀ x, x ∈ Multiregion.interior S → x ∈ Multiregion.interior t.holes) →
      (∀ x, x ∈ Multiregion.pts S → x ∈ Multiregion.interior t.holes ∨ x ∈ Multiregion.pts t.holes) →
      (∃ x, (x ∈ t.border.pts ∨ x ∈ Multiregion.pts t.holes) ∧
        (x ∈ g.border.pts ∨ x ∈ Multiregion.pts S ∨ x ∈ Multiregion.pts Q)) →
      PolygonRel t g .enclosed := by
    intro oi ob meet
    refine parts (inner_enclosed td gd.border hS.split hQ.split qi (fun x hx => hi hx) (fun x hx => hb hx)
      oi ob meet ?_)
    obtain ⟨y, y1, y2⟩ := (polygon_nonempty ht).1
    have yg : y ∈ g.interior := by
      refine ⟨hi y1, ?_⟩
      rw [e3]
      refine ⟨?_, ?_⟩
      · rcases hS.split.cover y with h' | h' | h'
        · exact absurd y2 (td.holes.ie y (oi y h'))
        · rcases ob y h' with h' | h'
          · exact absurd y2 (td.holes.ie y h')
          · exact absurd y2 (td.holes.be y h')
        · exact h'
      · rcases hQ.split.cover y with h' | h' | h'
        · exact absurd (qi y (.inl y1) (.inl h')).1 (td.border.ib y y1)
        · exact absurd (qi y (.inl y1) (.inr h')).1 (td.border.ib y y1)
        · exact h'
    obtain ⟨z, z1, z2, z3⟩ := hg.meets hgc (c := t.border) ⟨y, yg, y1⟩ ⟨w, w1, w2⟩
    rw [e3] at z3
    exact ⟨z, .inl z1, z2, z3⟩
  have meetb : rb = .enclosed → ∃ x, (x ∈ t.border.pts ∨ x ∈ Multiregion.pts t.holes) ∧
      (x ∈ g.border.pts ∨ x ∈ Multiregion.pts S ∨ x ∈ Multiregion.pts Q) := by
    rintro rfl
    obtain ⟨-, -, -, x, x1, x2⟩ := h
    exact ⟨x, .inl x1, .inl x2⟩
  have meetq : nt = false → ∃ x, (x ∈ t.border.pts ∨ x ∈ Multiregion.pts t.holes) ∧
      (x ∈ g.border.pts ∨ x ∈ Multiregion.pts S ∨ x ∈ Multiregion.pts Q) := by
    intro hnt
    obtain ⟨c, hcm, ⟨x, x1, x2⟩, -⟩ := hs.touch hnt
    exact ⟨x, .inl x2, .inr (.inr ⟨c, hcm, x1⟩)⟩
  by_cases hSe : S = []
  · subst hSe
    refine ⟨if nt then rb else .enclosed, by simp, .inl ?_⟩
    have n1 : ∀ x, x ∉ Multiregion.interior ([] : List (Contour K)) := fun x ⟨c, h, _⟩ => by simp at h
    have n2 : ∀ x, x ∉ Multiregion.pts ([] : List (Contour K)) := fun x ⟨c, h, _⟩ => by simp at h
    have enc := enclosed (fun x hx => absurd hx (n1 x)) (fun x hx => absurd hx (n2 x))
    cases hnt : nt
    · exact enc (meetq hnt)
    · rcases hrb with rfl | rfl
      · exact within hnt rfl fun x hx => hx.elim (fun h => absurd h (n1 x)) fun h => absurd h (n2 x)
      · exact enc (meetb rfl)
  rw [if_pos hSe]
  obtain ⟨c, hcS⟩ := List.exists_mem_of_ne_nil _ hSe
  have hcg := hs.inside.subset hcS
  have hcs := hg.holes.simple c hcg
  by_cases hj : t.holes = []
  · refine ⟨.overlap, by simp [hj], .inl (over c hcg ?_
      (RegionRel.border_outside hcs ht.border (hs.inner c hcS)))⟩
    obtain ⟨e1, -, -⟩ := Polygon.no_holes hj
    obtain ⟨x, hx⟩ := hcs.interior_nonempty
    rw [e1]
    exact ⟨x, (RegionRel.enclosed_or (hs.inner c hcS)).1 hx, hx⟩
  rw [if_pos hj]
  obtain ⟨r, hr, hrel⟩ := C38_multiregion_in_multiregion hc hS ht.holes hSe hj
  have hr : multiregion.relateMultiregion t.holes S context = .ok r := hr
  obtain ⟨nS1, nS2⟩ := multiregion_nonempty hS hSe
  obtain ⟨nj1, nj2⟩ := multiregion_nonempty ht.holes hj
  rw [hr]
  have inside : r = .equal ∨ r = .component ∨ r = .enclosed → PolygonRel t g .enclosed := by
    intro hr'
    obtain ⟨i1, i2, x, x1, x2⟩ := inside_of_rel hrel nS2 hr'
    exact enclosed i1 i2 ⟨x, .inr x2, .inr (.inl x1)⟩
  have outside : r ≠ .equal ∧ r ≠ .component ∧ r ≠ .enclosed ∧ r ≠ .within → PolygonRel t g .overlap := by
    intro hr'
    obtain ⟨y, ⟨d, hdS, y1⟩, y2⟩ := outside_of_rel hS.split td.holes hrel nS1 nj2 (fun z z1 z2 =>
      ((ht.holes.near hS.areal z1).1 z2).2) hr'
    have hdg := hs.inside.subset hdS
    exact over d hdg ⟨y, ⟨(RegionRel.enclosed_or (hs.inner d hdS)).1 y1, y2⟩, y1⟩
      (RegionRel.border_outside (hg.holes.simple d hdg) ht.border (hs.inner d hdS))
  cases r
  case within =>
    refine ⟨rb, rfl, ?_⟩
    have hrel : Multiregion.interior S ∪ Multiregion.pts S ⊆ Multiregion.interior t.holes := hrel
    have enc := enclosed (fun x hx => hrel (.inl hx)) (fun x hx => .inl (hrel (.inr hx)))
    rcases hrb with rfl | rfl
    · cases hnt : nt
      · refine .inr ⟨rfl, ⟨?_, c, hcg, ?_⟩, enc (meetq hnt)⟩
        · obtain ⟨d, hd, hd'⟩ := hs.touch hnt
          exact ⟨d, hs.outside.subset hd, hd'⟩
        · rintro x (hx | hx)
          · exact hrel (.inl ⟨c, hcS, hx⟩)
          · exact hrel (.inr ⟨c, hcS, hx⟩)
      · exact .inl (within hnt rfl fun x hx => hrel hx)
    · exact .inl (enc (meetb rfl))
  case equal =>
    refine ⟨.enclosed, ?_, .inl (inside (by simp))⟩
    rcases hrb with rfl | rfl <;> rfl
  case component => exact ⟨.enclosed, rfl, .inl (inside (by simp))⟩
  case enclosed => exact ⟨.enclosed, rfl, .inl (inside (by simp))⟩
  all_goals exact ⟨.overlap, rfl, .inl (outside (by simp))⟩

/-- The other branch of `relatePolygon` answers the same with the operands exchanged. -/
theorem mirrored {context : Context K} (hc : context.Exact) {t g : Polygon K} (hg : g.border.Simple)
    (ht : t.Valid) {rb : Relation} (hrb : rb = .within ∨ rb = .enclosed) {r : Relation}
    (h : innerAnswer context t g rb = .ok r) :
    (do
      if t.holes ≠ [] then
        match ← polygon.holesLoop g.border (context.contourBox g.border) context t.holes true [] with
        | .inl relation => return relation
        | .inr (noneTouch, subsets) =>
          if subsets ≠ [] then
            let holesRelation ← if g.holes ≠ []
              then Orient.multiregion.relateMultiregion g.holes subsets context
              else .ok .disjoint
            return match holesRelation with
              | .equal => if rb.complement = .cover then .encloses else rb.complement
              | .component | .enclosed => .encloses
              | .within => rb.complement
              | _ => .overlap
          else return if noneTouch then rb.complement else .encloses
      else
        return if g.holes ≠ [] ∧ rb.complement = .composite then .encloses else rb.complement : Py Relation) =
      .ok r.complement := by
  unfold innerAnswer at h
  by_cases hj : t.holes = []
  · rw [if_neg (not_not.mpr hj)] at h ⊢
    cases h
    rcases hrb with rfl | rfl <;> simp [Relation.complement, pure, Except.pure]
  · rw [if_pos hj] at h ⊢
    rcases holesLoop_spec hc hg t.holes ht.holes.simple true [] with
      ⟨d, hd, r', hr, hx⟩ | ⟨S, Q, nt, hs, hx⟩
    · rcases hx with ⟨hx, -⟩ | ⟨hx, -⟩ | ⟨hx, -⟩ <;>
      · rw [hx] at h ⊢
        cases h
        rfl
    · rw [hx] at h ⊢
      simp only [bind, Except.bind, pure, Except.pure] at h ⊢
      by_cases hS : [] ++ S = []
      · rw [if_neg (not_not.mpr hS)] at h ⊢
        cases h
        rcases hrb with rfl | rfl <;> cases nt <;> rfl
      · rw [if_pos hS] at h ⊢
        by_cases hh : g.holes = []
        · rw [if_neg (not_not.mpr hh)] at h ⊢
          cases h
          rfl
        · rw [if_pos hh] at h ⊢
          cases hm : multiregion.relateMultiregion g.holes ([] ++ S) context with
          | error e => rw [hm] at h; cases h
          | ok r' =>
            rw [hm] at h
            cases r' <;> rcases hrb with rfl | rfl <;> cases h <;> rfl

/-- C25: `polygon_in_polygon` always answers for valid polygons with connected interiors, and the answer is
the relation of the interiors and the boundaries, except that `WITHIN` may be answered instead of
`ENCLOSED` and `COVER` instead of `ENCLOSES`. -/
theorem C25_polygon_in_polygon {context : Context K} (hc : context.Exact) {t g : Polygon K}
    (ht : t.Valid) (hg : g.Valid) (htc : t.Connected) (hgc : g.Connected) :
    ∃ r, planar.polygonInPolygon t g context = .ok r ∧
      (PolygonRel t g r ∨ (r = .within ∧ Overlooked t g ∧ PolygonRel t g .enclosed) ∨
        (r = .cover ∧ Overlooked g t ∧ PolygonRel t g .encloses)) := by
  have td := ht.holed
  have gd := hg.holed
  have et := IsBoxOf.unique (hc.polygonBox t ht.border.ne_nil) (hc.contourBox _ ht.border.ne_nil)
  have eg := IsBoxOf.unique (hc.polygonBox g hg.border.ne_nil) (hc.contourBox _ hg.border.ne_nil)
  obtain ⟨rb, hrb, h⟩ := C32_region_in_region hc ht.border hg.border
  have hrb : region.relateRegionBoxed g.border t.border (context.contourBox g.border)
    (context.contourBox t.border) context = .ok rb := hrb
  unfold planar.polygonInPolygon polygon.relatePolygon
  simp only [et, eg, hrb, bind, Except.bind, pure, Except.pure]
  cases rb
  case component => exact absurd h (ht.border.not_component hg.border)
  case composite => exact absurd h (ht.border.not_composite hg.border)
  case cross => exact h.elim
  case disjoint => exact ⟨_, rfl, .inl (borders_table td gd h (by simp) (by simp))⟩
  case touch => exact ⟨_, rfl, .inl (borders_table td gd h (by simp) (by simp))⟩
  case overlap =>
    refine ⟨_, rfl, .inl (borders_table td gd h (fun _ => ?_) (by simp))⟩
    obtain ⟨h1, h2, h3⟩ := h
    obtain ⟨z, z1, z2⟩ := hg.border.meets_inside (Set.inter_comm _ _ ▸ h1) (Set.inter_comm _ _ ▸ h3)
    obtain ⟨v, v1, v2⟩ := hg.border.meets_outside ht.border (Set.inter_comm _ _ ▸ h2)
    obtain ⟨u, u1, u2⟩ := ht.border.meets_outside hg.border h3
    have k1 := ((ht.near hg.border.areal (.inl z1)).1 z2).1
    have k2 := (ht.near hg.border.areal (.inl v1)).2 v2
    have k3 := (hg.near ht.border.areal (.inl u1)).2 u2
    obtain ⟨y, y1, y2⟩ := ht.meets htc k1 k2
    obtain ⟨x, x1, x2⟩ := ((hg.near ht.areal (.inl y1)).1 y2).1
    exact ⟨⟨x, x2, x1⟩, k2, k3⟩
  case equal =>
    obtain ⟨h1, h2⟩ := h
    by_cases hj : t.holes = []
    · obtain ⟨e1, e2, e3⟩ := Polygon.no_holes hj
      by_cases hh : g.holes = []
      · obtain ⟨f1, f2, f3⟩ := Polygon.no_holes hh
        refine ⟨.equal, by simp [hj, hh, bind, Except.bind, pure, Except.pure], .inl ⟨?_, ?_⟩⟩
        · rw [e1, f1, h1]
        · rw [e2, f2, h2]
      · refine ⟨.encloses, by simp [hj, hh, bind, Except.bind, pure, Except.pure], .inl ?_⟩
        obtain ⟨d, hd⟩ := List.exists_mem_of_ne_nil _ hh
        obtain ⟨w, w1, w2⟩ := hg.hole_meets hd
        obtain ⟨y, hy⟩ := ht.border.exists_mem
        unfold PolygonRel
        rw [e1, e2, e3, h1, h2]
        refine ⟨fun x hx => hx.1, ?_, ⟨w, .inr ⟨d, hd, w1⟩, w2⟩, ⟨y, h2 ▸ hy, .inl (h2 ▸ hy)⟩⟩
        rintro x (hx | hx)
        · exact .inr hx
        · exact gd.inside x hx
    · by_cases hh : g.holes = []
      · obtain ⟨f1, f2, f3⟩ := Polygon.no_holes hh
        refine ⟨.enclosed, by simp [hj, hh, bind, Except.bind, pure, Except.pure], .inl ?_⟩
        obtain ⟨d, hd⟩ := List.exists_mem_of_ne_nil _ hj
        obtain ⟨w, w1, w2⟩ := ht.hole_meets hd
        obtain ⟨y, hy⟩ := ht.border.exists_mem
        unfold PolygonRel
        rw [f1, f2, f3, ← h1, ← h2]
        refine ⟨fun x hx => hx.1, ?_, ⟨w, .inr ⟨d, hd, w1⟩, w2⟩, ⟨y, .inl hy, hy⟩⟩
        rintro x (hx | hx)
        · exact .inr hx
        · exact td.inside x hx
      · obtain ⟨r, hr, hrel⟩ := C38_multiregion_in_multiregion hc hg.holes ht.holes hh hj
        have hr : multiregion.relateMultiregion t.holes g.holes context = .ok r := hr
        have h3 : t.border.exterior = g.border.exterior := by
          ext x
          have k1 := td.border.cover x
          have k2 := gd.border.cover x
          have k3 := td.border.ie x
          have k4 := td.border.be x
          have k5 := gd.border.ie x
          have k6 := gd.border.be x
          rw [h1, h2] at *
          grind
        have td' := td
        rw [h1, h2, h3] at td'
        obtain ⟨d, hd⟩ := List.exists_mem_of_ne_nil _ hh
        obtain ⟨w, w1, w2⟩ := hg.hole_meets hd
        obtain ⟨e, he⟩ := List.exists_mem_of_ne_nil _ hj
        obtain ⟨v, v1, v2⟩ := ht.hole_meets he
        have key := same_border_table td' gd hrel hg.border.exists_mem ?_
          ⟨(multiregion_nonempty hg.holes hh).1, (multiregion_nonempty ht.holes hj).1⟩
          ⟨w, ⟨d, hd, w1⟩, w2⟩ ⟨v, ⟨e, he, v1⟩, h1 ▸ v2⟩
          (fun z z1 z2 => ((ht.holes.near hg.holes.areal z1).1 z2).2)
          (fun z z1 z2 => ((hg.holes.near ht.holes.areal z1).1 z2).2) ?_ ?_
        · refine ⟨_, ?_, .inl (by
            unfold PolygonRel Polygon.interior Polygon.pts Polygon.exterior
            rw [h1, h2, h3]
            exact key)⟩
          simp only [bind, Except.bind, pure, Except.pure]
          rw [if_pos ⟨hh, hj⟩, hr]
          cases r <;> rfl
        · obtain ⟨z, z1, z2⟩ := ht.border_exterior
          obtain ⟨y, y1, y2⟩ := (hg.near ht.holes.areal (.inl (h2 ▸ z1))).2 z2
          exact ⟨y, y1.1, y1.2, y2⟩
        · rintro y y1 y2 ⟨c, hcm, y3⟩
          have hcs := hg.holes.simple c hcm
          obtain ⟨z, z1, z2⟩ := RegionRel.border_outside hcs hg.border (hole_rel hg hcm)
          obtain ⟨x, x1, x2⟩ := ht.meets htc (c := c) ⟨y, ⟨h1 ▸ y1, y2⟩, y3⟩
            ((ht.near hcs.areal (.inl (h2 ▸ z1))).2 z2)
          exact ⟨x, ⟨c, hcm, x1⟩, h1 ▸ x2.1, x2.2⟩
        · rintro y y1 y2 ⟨c, hcm, y3⟩
          have hcs := ht.holes.simple c hcm
          obtain ⟨z, z1, z2⟩ := RegionRel.border_outside hcs ht.border (hole_rel ht hcm)
          obtain ⟨x, x1, x2⟩ := hg.meets hgc (c := c) ⟨y, ⟨y1, y2⟩, y3⟩
            ((hg.near hcs.areal (.inl (h2 ▸ z1))).2 z2)
          exact ⟨x, ⟨c, hcm, x1⟩, x2.1, x2.2⟩
  case within =>
    obtain ⟨r, hr, h'⟩ := innerAnswer_spec hc ht hg htc hgc (.inl rfl) h
    refine ⟨r, ?_, h'.imp_right .inl⟩
    rw [← hr]
    unfold innerAnswer
    by_cases hh : g.holes = []
    · simp [hh, pure, Except.pure]
    · simp only [if_pos hh, bind, Except.bind, pure, Except.pure]
      rfl
  case enclosed =>
    obtain ⟨r, hr, h'⟩ := innerAnswer_spec hc ht hg htc hgc (.inr rfl) h
    refine ⟨r, ?_, h'.imp_right .inl⟩
    rw [← hr]
    unfold innerAnswer
    by_cases hh : g.holes = []
    · simp [hh, pure, Except.pure]
    · simp only [if_pos hh, bind, Except.bind, pure, Except.pure]
      rfl
  case cover =>
    obtain ⟨r, hr, h'⟩ := innerAnswer_spec hc hg ht hgc htc (.inl rfl) h.swap
    refine ⟨r.complement, ?_, ?_⟩
    · exact mirrored hc hg.border ht (by simp) hr
    · rcases h' with h' | ⟨rfl, o, h'⟩
      · exact .inl (CompoundRel.swap h')
      · exact .inr (.inr ⟨rfl, o, CompoundRel.swap h'⟩)
  case encloses =>
    obtain ⟨r, hr, h'⟩ := innerAnswer_spec hc hg ht hgc htc (.inr rfl) h.swap
    refine ⟨r.complement, ?_, ?_⟩
    · exact mirrored hc hg.border ht (by simp) hr
    · rcases h' with h' | ⟨rfl, o, h'⟩
      · exact .inl (CompoundRel.swap h')
      · exact .inr (.inr ⟨rfl, o, CompoundRel.swap h'⟩)

end Props
end Orient
