import Verif.Props.PolygonExamples
import Verif.Lemmas.Exhaust
import Verif.Props.Ranges

/-! C72: the answers of `polygon_in_polygon` and `multiregion_in_polygon` for polygons whose interiors need not be
connected. -/

set_option linter.unusedSectionVars false

namespace Orient
namespace Props

variable {K : Type} [Field K] [LinearOrder K] [IsStrictOrderedRing K]

theorem innerAnswer_all {context : Context K} (hc : context.Exact) {t g : Polygon K}
    (ht : t.Valid) (hg : g.Valid) {rb : Relation}
    (hrb : rb = .within ∨ rb = .enclosed) (h : RegionRel t.border g.border rb) :
    ∃ r, innerAnswer context g t rb = .ok r ∧
      (PolygonRel t g r ∨ (r = .within ∧ Overlooked t g ∧ PolygonRel t g .enclosed) ∨
        (r = .overlap ∧ (¬ t.Connected ∧ ¬ g.Connected) ∧ PolygonRel t g .touch) ∨
        (r = .enclosed ∧ PolygonRel t g .component)) := by
  have td := ht.holed
  have gd := hg.holed
  have hrel : RegionRel t.border g.border .within ∨ RegionRel t.border g.border .enclosed := by
    rcases hrb with rfl | rfl
    · exact .inl h
    · exact .inr h
  obtain ⟨hi, hb⟩ := RegionRel.enclosed_or hrel
  -- inner points of the bigger polygon outside of the smaller one
  obtain ⟨w, w1, w2⟩ : (g.interior ∩ t.border.exterior).Nonempty := by
    obtain ⟨v, v1, v2⟩ := RegionRel.border_outside ht.border hg.border hrel
    exact (hg.near ht.border.areal (.inl v1)).2 v2
  have inner : ∀ {r}, CompoundRel (t.border.interior ∩ Multiregion.exterior t.holes)
      (t.border.pts ∪ Multiregion.pts t.holes) (t.border.exterior ∪ Multiregion.interior t.holes)
      g.interior g.pts g.exterior r → PolygonRel t g r := fun h => h
  unfold innerAnswer
  by_cases hne : g.holes = []
  · refine ⟨rb, by simp [hne, pure, Except.pure], .inl ?_⟩
    obtain ⟨e1, e2, e3⟩ := Polygon.no_holes hne
    apply inner
    rw [e1, e2, e3]
    obtain ⟨⟨a1', a2', a3', a4'⟩, ⟨b1', b2', b3', b4'⟩, c1', c2'⟩ := td
    rcases hrb with rfl | rfl <;>
      simp only [RegionRel, CompoundRel, Set.subset_def, Set.eq_empty_iff_forall_notMem, Set.Nonempty,
        Set.mem_inter_iff, Set.mem_union, Set.ext_iff] at h ⊢ <;> grind
  rw [if_pos hne]
  have over : ∀ d ∈ g.holes, (t.interior ∩ Contour.interior d).Nonempty →
      (Contour.pts d ∩ (t.interior ∪ t.pts)).Nonempty → (t.border.pts ∩ Contour.exterior d).Nonempty →
      (Contour.pts d ∩ t.border.interior).Nonempty →
      PolygonRel t g .overlap ∨ ((¬ t.Connected ∧ ¬ g.Connected) ∧ PolygonRel t g .touch) := by
    rintro d hd ⟨x, x1, x2⟩ ⟨y, y1, y2⟩ ⟨u, u1, u2⟩ ⟨v, v1, v2⟩
    obtain ⟨r, hr⟩ := exists_rel ht.split hg.split (ht.beside hg.areal) (hg.beside ht.areal)
    rcases hr.of_both ht.split hg.split ⟨x, x1, .inr ⟨d, hd, x2⟩⟩ ⟨w, .inl w2, w1⟩
      ⟨y, y2, .inr (.inr ⟨d, hd, y1⟩)⟩ with rfl | rfl
    · exact .inl hr
    · refine .inr ⟨⟨fun htc => ?_, fun hgc => ?_⟩, hr⟩
      · have hds := hg.holes.simple d hd
        obtain ⟨z, z1, z2⟩ := ht.meets htc (c := d) ⟨x, x1, x2⟩ ((ht.near hds.areal (.inl u1)).2 u2)
        exact ht.split.ib z z2 (hr.2 ⟨.inl z2, .inr (.inr ⟨d, hd, z1⟩)⟩).1
      · obtain ⟨z, z1, z2⟩ := hg.meets hgc (c := t.border)
          ((hg.near ht.border.areal (.inr ⟨d, hd, v1⟩)).1 v2).1 ⟨w, w1, w2⟩
        exact hg.split.ib z z2 (hr.2 ⟨.inr (.inl z1), .inl z2⟩).2
  have inside : ∀ {d : Contour K}, d.Simple → RegionRel d t.border .within ∨ RegionRel d t.border .enclosed →
      (Contour.pts d ∩ t.border.interior).Nonempty := by
    rintro d hd (h | h)
    · obtain ⟨x, hx⟩ := hd.exists_mem
      exact ⟨x, hx, h (.inr hx)⟩
    · exact h.2.2.1
  have common : ∀ d ∈ g.holes, RegionRel d t.border .within ∨ RegionRel d t.border .enclosed →
      (t.interior ∩ Contour.interior d).Nonempty → (Contour.pts d ∩ (t.interior ∪ t.pts)).Nonempty := by
    rintro d hd hdb ⟨x, x1, x2⟩
    have hds := hg.holes.simple d hd
    by_contra hn
    have out : ∀ p ∈ Contour.pts d, p ∈ Multiregion.interior t.holes := by
      intro p hp
      rcases ht.split.cover p with h | h | h | h
      · exact absurd ⟨p, hp, .inl h⟩ hn
      · exact absurd ⟨p, hp, .inr h⟩ hn
      · rcases (RegionRel.enclosed_or hdb).2 hp with h' | h'
        · exact absurd h (td.border.ie p h')
        · exact absurd h (td.border.be p h')
      · exact h
    obtain ⟨p, hp⟩ := hds.exists_mem
    obtain ⟨e, he, hpe⟩ := out p hp
    have hes := ht.holes.simple e he
    refine Contour.not_both_of_disjoint (a := d) (b := e) ?_ ⟨p, hp, hpe⟩
      (hes.meets_outside hds ⟨x, x1.2 e he, x2⟩)
    refine Set.eq_empty_iff_forall_notMem.mpr fun q hq => hn ⟨q, hq.1, .inr (.inr ⟨e, he, hq.2⟩)⟩
  rcases holesLoop_spec hc ht.border g.holes hg.holes.simple true [] with
    ⟨d, hd, r, hr, hx⟩ | ⟨S, Q, nt, hs, hx⟩
  · have hds := hg.holes.simple d hd
    have around := hole_around td gd (fun x hx => ⟨d, hd, hx⟩) (fun x hx => ⟨d, hd, hx⟩) hr
      ht.border.exists_mem hds.split
    rcases hx with ⟨hx, rfl⟩ | ⟨hx, rfl⟩ | ⟨hx, rfl | rfl⟩
    · refine ⟨.overlap, by simp [hx, bind, Except.bind, pure, Except.pure], ?_⟩
      obtain ⟨h1, h2, h3⟩ := hr
      obtain ⟨z, z1, z2⟩ := hds.meets_inside h1 h2
      obtain ⟨y, y1, y2⟩ := Contour.meet_of_both ⟨z, z1, z2⟩ (hds.meets_outside ht.border h3)
      exact (over d hd ((ht.near hds.areal (.inl z1)).1 z2).1 ⟨y, y2, .inr (.inl y1)⟩
        (hds.meets_outside ht.border h3) (hds.inside_of_both ht.border ⟨z, z1, z2⟩ (hds.meets_outside ht.border h3))).imp_right
        fun h => .inr (.inl ⟨rfl, h⟩)
    · exact ⟨.disjoint, by simp [hx, bind, Except.bind, pure, Except.pure], .inl around⟩
    · exact ⟨.touch, by simp [hx, bind, Except.bind, pure, Except.pure], .inl around⟩
    · exact ⟨.touch, by simp [hx, bind, Except.bind, pure, Except.pure], .inl around⟩
  obtain ⟨e1, e2, e3⟩ := multiregion_parts hs.inside hs.outside hs.all
  have hS := hg.holes.sublist hs.inside
  have hQ := hg.holes.sublist hs.outside
  have hx : polygon.holesLoop t.border (context.contourBox t.border) context g.holes true [] =
      .ok (.inr (nt, S)) := by simpa using hx
  simp only [hx, bind, Except.bind, pure, Except.pure]
  have qi : ∀ x, x ∈ t.border.interior ∨ x ∈ t.border.pts →
      x ∈ Multiregion.interior Q ∨ x ∈ Multiregion.pts Q → x ∈ t.border.pts ∧ x ∈ Multiregion.pts Q := by
    rintro x hx (⟨c, hcm, h⟩ | ⟨c, hcm, h⟩)
    · have := RegionRel.outer_or (hs.outer c hcm) ⟨.inl h, hx⟩
      exact ⟨this.2, c, hcm, this.1⟩
    · have := RegionRel.outer_or (hs.outer c hcm) ⟨.inr h, hx⟩
      exact ⟨this.2, c, hcm, this.1⟩
  have qi' : nt = true → ∀ x, x ∈ t.border.interior ∨ x ∈ t.border.pts →
      ¬ (x ∈ Multiregion.interior Q ∨ x ∈ Multiregion.pts Q) := by
    rintro hnt x hx (⟨c, hcm, h'⟩ | ⟨c, hcm, h'⟩)
    · have h : (Contour.interior c ∪ Contour.pts c) ∩ (t.border.interior ∪ t.border.pts) = ∅ :=
        hs.apart hnt c hcm
      exact Set.eq_empty_iff_forall_notMem.mp h x ⟨.inl h', hx⟩
    · have h : (Contour.interior c ∪ Contour.pts c) ∩ (t.border.interior ∪ t.border.pts) = ∅ :=
        hs.apart hnt c hcm
      exact Set.eq_empty_iff_forall_notMem.mp h x ⟨.inr h', hx⟩
  have parts : ∀ {r}, CompoundRel (t.border.interior ∩ Multiregion.exterior t.holes)
      (t.border.pts ∪ Multiregion.pts t.holes) (t.border.exterior ∪ Multiregion.interior t.holes)
      (g.border.interior ∩ (Multiregion.exterior S ∩ Multiregion.exterior Q))
      (g.border.pts ∪ (Multiregion.pts S ∪ Multiregion.pts Q))
      (g.border.exterior ∪ (Multiregion.interior S ∪ Multiregion.interior Q)) r → PolygonRel t g r := by
    intro r h
    rw [← e1, ← e2, ← e3] at h
    exact h
  have within : nt = true → rb = .within →
      (∀ x, x ∈ Multiregion.interior S ∨ x ∈ Multiregion.pts S → x ∈ Multiregion.interior t.holes) →
      PolygonRel t g .within := by
    rintro hnt rfl ob
    have h : t.border.interior ∪ t.border.pts ⊆ g.border.interior := h
    exact parts (inner_within td gd.border hS.split hQ.split (qi' hnt) (fun x hx => h hx) ob)
  have enclosed : (∀ x, x ∈ Multiregion.interior S → x ∈ Multiregion.interior t.holes) →
      (∀ x, x ∈ Multiregion.pts S → x ∈ Multiregion.interior t.holes ∨ x ∈ Multiregion.pts t.holes) →
      (∃ x, (x ∈ t.border.pts ∨ x ∈ Multiregion.pts t.holes) ∧
        (x ∈ g.border.pts ∨ x ∈ Multiregion.pts S ∨ x ∈ Multiregion.pts Q)) →
      PolygonRel t g .enclosed ∨ PolygonRel t g .component := by
    intro oi ob meet
    refine (inner_enclosed_or td gd.border hS.split hQ.split qi (fun x hx => hi hx) (fun x hx => hb hx)
      oi ob meet ?_).imp parts parts
    have k := w1.2
    rw [e3] at k
    exact ⟨w, .inl w2, w1.1, k⟩
  have meetb : rb = .enclosed → ∃ x, (x ∈ t.border.pts ∨ x ∈ Multiregion.pts t.holes) ∧
      (x ∈ g.border.pts ∨ x ∈ Multiregion.pts S ∨ x ∈ Multiregion.pts Q) := by
    rintro rfl
    obtain ⟨-, -, -, x, x1, x2⟩ := h
    exact ⟨x, .inl x1, .inl x2⟩
  have meetq : nt = false → ∃ x, (x ∈ t.border.pts ∨ x ∈ Multiregion.pts t.holes) ∧
      (x ∈ g.border.pts ∨ x ∈ Multiregion.pts S ∨ x ∈ Multiregion.pts Q) := by
    intro hnt
    obtain ⟨c, hcm, ⟨x, x1, x2⟩, -⟩ := hs.touch hnt
    exact ⟨x, .inl x2, .inr (.inr ⟨c, hcm, x1⟩)⟩
  by_cases hSe : S = []
  · subst hSe
    refine ⟨if nt then rb else .enclosed, by simp, ?_⟩
    have n1 : ∀ x, x ∉ Multiregion.interior ([] : List (Contour K)) := fun x ⟨c, h, _⟩ => by simp at h
    have n2 : ∀ x, x ∉ Multiregion.pts ([] : List (Contour K)) := fun x ⟨c, h, _⟩ => by simp at h
    have enc := enclosed (fun x hx => absurd hx (n1 x)) (fun x hx => absurd hx (n2 x))
    cases hnt : nt
    · exact (enc (meetq hnt)).imp_right fun h => .inr (.inr ⟨rfl, h⟩)
    · rcases hrb with rfl | rfl
      · exact .inl (within hnt rfl fun x hx => hx.elim (fun h => absurd h (n1 x)) fun h => absurd h (n2 x))
      · exact (enc (meetb rfl)).imp_right fun h => .inr (.inr ⟨rfl, h⟩)
  rw [if_pos hSe]
  obtain ⟨c, hcS⟩ := List.exists_mem_of_ne_nil _ hSe
  have hcg := hs.inside.subset hcS
  have hcs := hg.holes.simple c hcg
  by_cases hj : t.holes = []
  · have k : (t.interior ∩ Contour.interior c).Nonempty := by
      obtain ⟨e1, -, -⟩ := Polygon.no_holes hj
      obtain ⟨x, hx⟩ := hcs.interior_nonempty
      rw [e1]
      exact ⟨x, (RegionRel.enclosed_or (hs.inner c hcS)).1 hx, hx⟩
    exact ⟨.overlap, by simp [hj], (over c hcg k (common c hcg (hs.inner c hcS) k)
        (RegionRel.border_outside hcs ht.border (hs.inner c hcS)) (inside hcs (hs.inner c hcS))).imp_right
      fun h => .inr (.inl ⟨rfl, h⟩)⟩
  rw [if_pos hj]
  obtain ⟨r, hr, hrel⟩ := C38_multiregion_in_multiregion hc hS ht.holes hSe hj
  have hr : multiregion.relateMultiregion t.holes S context = .ok r := hr
  obtain ⟨nS1, nS2⟩ := multiregion_nonempty hS hSe
  obtain ⟨nj1, nj2⟩ := multiregion_nonempty ht.holes hj
  rw [hr]
  have covered : r = .equal ∨ r = .component ∨ r = .enclosed → PolygonRel t g .enclosed ∨ PolygonRel t g .component := by
    intro hr'
    obtain ⟨i1, i2, x, x1, x2⟩ := inside_of_rel hrel nS2 hr'
    exact enclosed i1 i2 ⟨x, .inr x2, .inr (.inl x1)⟩
  have outside : r ≠ .equal ∧ r ≠ .component ∧ r ≠ .enclosed ∧ r ≠ .within →
      PolygonRel t g .overlap ∨ ((¬ t.Connected ∧ ¬ g.Connected) ∧ PolygonRel t g .touch) := by
    intro hr'
    obtain ⟨y, ⟨d, hdS, y1⟩, y2⟩ := outside_of_rel hS.split td.holes hrel nS1 nj2 (fun z z1 z2 =>
      ((ht.holes.near hS.areal z1).1 z2).2) hr'
    have hdg := hs.inside.subset hdS
    have k : (t.interior ∩ Contour.interior d).Nonempty :=
      ⟨y, ⟨(RegionRel.enclosed_or (hs.inner d hdS)).1 y1, y2⟩, y1⟩
    exact over d hdg k (common d hdg (hs.inner d hdS) k)
      (RegionRel.border_outside (hg.holes.simple d hdg) ht.border (hs.inner d hdS))
      (inside (hg.holes.simple d hdg) (hs.inner d hdS))
  cases r
  case within =>
    refine ⟨rb, rfl, ?_⟩
    have hrel : Multiregion.interior S ∪ Multiregion.pts S ⊆ Multiregion.interior t.holes := hrel
    have enc := fun meet => (enclosed (fun x hx => hrel (.inl hx)) (fun x hx => .inl (hrel (.inr hx))) meet).resolve_right
      fun h => by
        obtain ⟨e, he⟩ := List.exists_mem_of_ne_nil _ hj
        obtain ⟨z, z1, z2⟩ := ht.hole_meets he
        rcases h.2.1 (.inr ⟨e, he, z1⟩) with k | k
        · exact gd.border.ib z (hi z2) k
        · have k : z ∈ Multiregion.pts g.holes := k
          rw [e2] at k
          rcases k with k | k
          · exact td.holes.ib z (hrel (.inr k)) ⟨e, he, z1⟩
          · exact td.border.ib z z2 (qi z (.inl z2) (.inr k)).1
    rcases hrb with rfl | rfl
    · cases hnt : nt
      · refine .inr (.inl ⟨rfl, ⟨?_, c, hcg, ?_⟩, enc (meetq hnt)⟩)
        · obtain ⟨d, hd, hd'⟩ := hs.touch hnt
          exact ⟨d, hs.outside.subset hd, hd'⟩
        · rintro x (hx | hx)
          · exact hrel (.inl ⟨c, hcS, hx⟩)
          · exact hrel (.inr ⟨c, hcS, hx⟩)
      · exact .inl (within hnt rfl fun x hx => hrel hx)
    · exact .inl (enc (meetb rfl))
  case equal =>
    refine ⟨.enclosed, ?_, (covered (by simp)).imp_right fun h => .inr (.inr ⟨rfl, h⟩)⟩
    rcases hrb with rfl | rfl <;> rfl
  case component => exact ⟨.enclosed, rfl, (covered (by simp)).imp_right fun h => .inr (.inr ⟨rfl, h⟩)⟩
  case enclosed => exact ⟨.enclosed, rfl, (covered (by simp)).imp_right fun h => .inr (.inr ⟨rfl, h⟩)⟩
  all_goals exact ⟨.overlap, rfl, (outside (by simp)).imp_right fun h => .inr (.inl ⟨rfl, h⟩)⟩

theorem polygon_in_polygon_all {context : Context K} (hc : context.Exact) {t g : Polygon K}
    (ht : t.Valid) (hg : g.Valid) :
    ∃ r, planar.polygonInPolygon t g context = .ok r ∧
      (PolygonRel t g r ∨ (r = .within ∧ Overlooked t g ∧ PolygonRel t g .enclosed) ∨
        (r = .cover ∧ Overlooked g t ∧ PolygonRel t g .encloses) ∨
        (r = .overlap ∧ (¬ t.Connected ∧ ¬ g.Connected) ∧ PolygonRel t g .touch) ∨
        (r = .enclosed ∧ PolygonRel t g .component) ∨ (r = .encloses ∧ PolygonRel t g .composite)) := by
  have td := ht.holed
  have gd := hg.holed
  have et := IsBoxOf.unique (hc.polygonBox t ht.border.ne_nil) (hc.contourBox _ ht.border.ne_nil)
  have eg := IsBoxOf.unique (hc.polygonBox g hg.border.ne_nil) (hc.contourBox _ hg.border.ne_nil)
  obtain ⟨rb, hrb, h⟩ := C32_region_in_region hc ht.border hg.border
  have hrb : region.relateRegionBoxed g.border t.border (context.contourBox g.border)
    (context.contourBox t.border) context = .ok rb := hrb
  unfold planar.polygonInPolygon polygon.relatePolygon
  simp only [et, eg, hrb, bind, Except.bind, pure, Except.pure]
  cases rb
  case component => exact absurd h (ht.border.not_component hg.border)
  case composite => exact absurd h (ht.border.not_composite hg.border)
  case cross => exact h.elim
  case disjoint => exact ⟨_, rfl, .inl (borders_table td gd h (by simp) (by simp))⟩
  case touch => exact ⟨_, rfl, .inl (borders_table td gd h (by simp) (by simp))⟩
  case overlap =>
    refine ⟨_, rfl, ?_⟩
    obtain ⟨h1, h2, h3⟩ := h
    obtain ⟨z, z1, z2⟩ := hg.border.meets_inside (Set.inter_comm _ _ ▸ h1) (Set.inter_comm _ _ ▸ h3)
    obtain ⟨v, v1, v2⟩ := hg.border.meets_outside ht.border (Set.inter_comm _ _ ▸ h2)
    obtain ⟨u, u1, u2⟩ := ht.border.meets_outside hg.border h3
    have k1 := ((ht.near hg.border.areal (.inl z1)).1 z2).1
    have k2 := (ht.near hg.border.areal (.inl v1)).2 v2
    have k3 := (hg.near ht.border.areal (.inl u1)).2 u2
    obtain ⟨y, y1, y2⟩ := Contour.meet_of_both ⟨z, z1, z2⟩ ⟨v, v1, v2⟩
    obtain ⟨r, hr⟩ := exists_rel ht.split hg.split (ht.beside hg.areal) (hg.beside ht.areal)
    rcases hr.of_both ht.split hg.split (k2.imp fun x hx => ⟨hx.1, .inl hx.2⟩) (k3.imp fun x hx => ⟨.inl hx.2, hx.1⟩)
      ⟨y, .inr (.inl y1), .inr (.inl y2)⟩ with rfl | rfl
    · exact .inl hr
    · refine .inr (.inr (.inr (.inl ⟨rfl, ⟨fun htc => ?_, fun hgc => ?_⟩, hr⟩)))
      · obtain ⟨x, x1, x2⟩ := ht.meets htc k1 k2
        exact ht.split.ib x x2 (hr.2 ⟨.inl x2, .inr (.inl x1)⟩).1
      · obtain ⟨s, s1, s2⟩ := hg.border.inside_of_both ht.border ⟨z, z1, z2⟩ ⟨v, v1, v2⟩
        obtain ⟨x, x1, x2⟩ := hg.meets hgc ((hg.near ht.border.areal (.inl s1)).1 s2).1 k3
        exact hg.split.ib x x2 (hr.2 ⟨.inr (.inl x1), .inl x2⟩).2
  case equal =>
    obtain ⟨h1, h2⟩ := h
    by_cases hj : t.holes = []
    · obtain ⟨e1, e2, e3⟩ := Polygon.no_holes hj
      by_cases hh : g.holes = []
      · obtain ⟨f1, f2, f3⟩ := Polygon.no_holes hh
        refine ⟨.equal, by simp [hj, hh, bind, Except.bind, pure, Except.pure], .inl ⟨?_, ?_⟩⟩
        · rw [e1, f1, h1]
        · rw [e2, f2, h2]
      · refine ⟨.encloses, by simp [hj, hh, bind, Except.bind, pure, Except.pure], .inl ?_⟩
        obtain ⟨d, hd⟩ := List.exists_mem_of_ne_nil _ hh
        obtain ⟨w, w1, w2⟩ := hg.hole_meets hd
        obtain ⟨y, hy⟩ := ht.border.exists_mem
        unfold PolygonRel
        rw [e1, e2, e3, h1, h2]
        refine ⟨fun x hx => hx.1, ?_, ⟨w, .inr ⟨d, hd, w1⟩, w2⟩, ⟨y, h2 ▸ hy, .inl (h2 ▸ hy)⟩⟩
        rintro x (hx | hx)
        · exact .inr hx
        · exact gd.inside x hx
    · by_cases hh : g.holes = []
      · obtain ⟨f1, f2, f3⟩ := Polygon.no_holes hh
        refine ⟨.enclosed, by simp [hj, hh, bind, Except.bind, pure, Except.pure], .inl ?_⟩
        obtain ⟨d, hd⟩ := List.exists_mem_of_ne_nil _ hj
        obtain ⟨w, w1, w2⟩ := ht.hole_meets hd
        obtain ⟨y, hy⟩ := ht.border.exists_mem
        unfold PolygonRel
        rw [f1, f2, f3, ← h1, ← h2]
        refine ⟨fun x hx => hx.1, ?_, ⟨w, .inr ⟨d, hd, w1⟩, w2⟩, ⟨y, .inl hy, hy⟩⟩
        rintro x (hx | hx)
        · exact .inr hx
        · exact td.inside x hx
      · obtain ⟨r, hr, hrel⟩ := C38_multiregion_in_multiregion hc hg.holes ht.holes hh hj
        have hr : multiregion.relateMultiregion t.holes g.holes context = .ok r := hr
        have h3 : t.border.exterior = g.border.exterior := by
          ext x
          have k1 := td.border.cover x
          have k2 := gd.border.cover x
          have k3 := td.border.ie x
          have k4 := td.border.be x
          have k5 := gd.border.ie x
          have k6 := gd.border.be x
          rw [h1, h2] at *
          grind
        have td' := td
        rw [h1, h2, h3] at td'
        obtain ⟨d, hd⟩ := List.exists_mem_of_ne_nil _ hh
        obtain ⟨w, w1, w2⟩ := hg.hole_meets hd
        obtain ⟨e, he⟩ := List.exists_mem_of_ne_nil _ hj
        obtain ⟨v, v1, v2⟩ := ht.hole_meets he
        have key := same_border_or td' gd hrel hg.border.exists_mem ?_
          ⟨(multiregion_nonempty hg.holes hh).1, (multiregion_nonempty ht.holes hj).1⟩
          ⟨(multiregion_nonempty hg.holes hh).2, (multiregion_nonempty ht.holes hj).2⟩
          (fun z z1 z2 => ((ht.holes.near hg.holes.areal z1).1 z2).2)
          (fun z z1 z2 => ((hg.holes.near ht.holes.areal z1).1 z2).2)
        · refine ⟨match (generalizing := false) r with
            | .disjoint | .touch | .overlap => .overlap
            | .cover | .encloses | .composite => .encloses
            | .equal => .equal
            | _ => .enclosed, ?_, ?_⟩
          · simp only [bind, Except.bind, pure, Except.pure]
            rw [if_pos ⟨hh, hj⟩, hr]
            cases r <;> rfl
          · unfold PolygonRel Polygon.interior Polygon.pts Polygon.exterior
            rw [h1, h2, h3]
            cases r <;> first
              | exact .inl key
              | exact key.imp_right fun h => .inr (.inr (.inr (.inl ⟨rfl, h⟩)))
              | exact key.imp_right fun h => .inr (.inr (.inr (.inr ⟨rfl, h⟩)))
        · obtain ⟨z, z1, z2⟩ := ht.border_exterior
          obtain ⟨y, y1, y2⟩ := (hg.near ht.holes.areal (.inl (h2 ▸ z1))).2 z2
          exact ⟨y, y1.1, y1.2, y2⟩
  case within =>
    obtain ⟨r, hr, h'⟩ := innerAnswer_all hc ht hg (.inl rfl) h
    refine ⟨r, ?_, h'.imp_right fun h => h.imp_right fun h => .inr (h.imp_right .inl)⟩
    rw [← hr]
    unfold innerAnswer
    by_cases hh : g.holes = []
    · simp [hh, pure, Except.pure]
    · simp only [if_pos hh, bind, Except.bind, pure, Except.pure]
      rfl
  case enclosed =>
    obtain ⟨r, hr, h'⟩ := innerAnswer_all hc ht hg (.inr rfl) h
    refine ⟨r, ?_, h'.imp_right fun h => h.imp_right fun h => .inr (h.imp_right .inl)⟩
    rw [← hr]
    unfold innerAnswer
    by_cases hh : g.holes = []
    · simp [hh, pure, Except.pure]
    · simp only [if_pos hh, bind, Except.bind, pure, Except.pure]
      rfl
  case cover =>
    obtain ⟨r, hr, h'⟩ := innerAnswer_all hc hg ht (.inl rfl) h.swap
    refine ⟨r.complement, ?_, ?_⟩
    · exact mirrored hc hg.border ht (by simp) hr
    · rcases h' with h' | ⟨rfl, o, h'⟩ | ⟨rfl, o, h'⟩ | ⟨rfl, h'⟩
      · exact .inl (CompoundRel.swap h')
      · exact .inr (.inr (.inl ⟨rfl, o, CompoundRel.swap h'⟩))
      · exact .inr (.inr (.inr (.inl ⟨rfl, o.symm, CompoundRel.swap h'⟩)))
      · exact .inr (.inr (.inr (.inr (.inr ⟨rfl, CompoundRel.swap h'⟩))))
  case encloses =>
    obtain ⟨r, hr, h'⟩ := innerAnswer_all hc hg ht (.inr rfl) h.swap
    refine ⟨r.complement, ?_, ?_⟩
    · exact mirrored hc hg.border ht (by simp) hr
    · rcases h' with h' | ⟨rfl, o, h'⟩ | ⟨rfl, o, h'⟩ | ⟨rfl, h'⟩
      · exact .inl (CompoundRel.swap h')
      · exact .inr (.inr (.inl ⟨rfl, o, CompoundRel.swap h'⟩))
      · exact .inr (.inr (.inr (.inl ⟨rfl, o.symm, CompoundRel.swap h'⟩)))
      · exact .inr (.inr (.inr (.inr (.inr ⟨rfl, CompoundRel.swap h'⟩))))

/-- The relation of a multiregion to a polygon. -/
def MultiregionRel (m : Multiregion K) (g : Polygon K) (r : Relation) : Prop :=
  CompoundRel (Multiregion.interior m) (Multiregion.pts m) (Multiregion.exterior m) g.interior g.pts g.exterior r

theorem multiregion_in_polygon_all {context : Context K} (hc : context.Exact) {m : Multiregion K}
    {g : Polygon K} (hm : Multiregion.Valid m) (hg : g.Valid) :
    ∃ r, planar.multiregionInPolygon m g context = .ok r ∧
      (MultiregionRel m g r ∨ (r = .overlap ∧ (MultiregionRel m g .encloses ∨ MultiregionRel m g .composite)) ∨
        (r = .enclosed ∧ (MultiregionRel m g .component ∨ MultiregionRel m g .equal))) := by
  unfold planar.multiregionInPolygon polygon.relateMultiregion
  by_cases hne : g.holes = []
  · obtain ⟨e1, e2, e3⟩ := Polygon.no_holes hne
    obtain ⟨r, hr, h⟩ := region_in_multiregion hc hg.border hm
    unfold MultiregionRel
    rw [e1, e2, e3]
    exact ⟨r.complement, by simp [hne, hr, bind, Except.bind, pure, Except.pure], .inl h.swap⟩
  have nh := multiregion_nonempty hg.holes hne
  have hd := hg.holed
  have sb := hg.border.split
  obtain ⟨d, hd'⟩ := List.exists_mem_of_ne_nil _ hne
  obtain ⟨w, w1, w2⟩ := hg.hole_meets hd'
  obtain ⟨r', hq⟩ := exists_rel hm.split hg.split (hm.beside hg.areal) (hg.beside hm.areal)
  have left := fun k1 k2 => hq.of_left hm.split hg.split k1 k2
  rcases relateMultiregionLoop_spec hc hg.border m hm.simple true [] with
    ⟨c, hcm, r, h, hr⟩ | ⟨S, Q, nt, hs, hr⟩
  · have hcs := hm.simple c hcm
    rcases hr with ⟨hr, rfl | rfl | rfl⟩ | ⟨hr, rfl⟩
    · refine ⟨.overlap, by simp [hne, hr, bind, Except.bind, pure, Except.pure], ?_⟩
      obtain ⟨h1, h2, h3⟩ := h
      obtain ⟨z, z1, z2⟩ := hcs.meets_inside h1 h2
      obtain ⟨v, v1, v2⟩ := hcs.meets_outside hg.border h3
      obtain ⟨x, x1, x2⟩ := ((hg.near hcs.areal (.inl z1)).1 z2).1
      obtain ⟨y, y1, y2⟩ := h2
      rcases left ⟨x, ⟨c, hcm, x2⟩, x1⟩ ⟨y, ⟨c, hcm, y1⟩, .inl y2⟩ with rfl | rfl | rfl | rfl
      · exact .inl hq
      · obtain ⟨u, u1, u2⟩ := Contour.meet_of_both ⟨z, z1, z2⟩ ⟨v, v1, v2⟩
        exact absurd (hq (.inr (.inl u1))) fun h => hm.split.ib u h ⟨c, hcm, u2⟩
      · exact .inr (.inl ⟨rfl, .inl hq⟩)
      · exact .inr (.inl ⟨rfl, .inr hq⟩)
    · refine ⟨.cover, by simp [hne, hr, bind, Except.bind, pure, Except.pure], .inl ?_⟩
      have h : g.border.interior ∪ g.border.pts ⊆ Contour.interior c := h
      rintro x (hx | hx | hx)
      · exact ⟨c, hcm, h (.inl hx.1)⟩
      · exact ⟨c, hcm, h (.inr hx)⟩
      · exact ⟨c, hcm, h (hd.inside x hx)⟩
    · refine ⟨.encloses, by simp [hne, hr, bind, Except.bind, pure, Except.pure], .inl ?_⟩
      obtain ⟨h1, h2, -, y, y1, y2⟩ := h
      have inn : ∀ x ∈ g.border.interior, x ∈ Multiregion.interior m := fun x hx => ⟨c, hcm, h1 hx⟩
      have bor : ∀ x ∈ g.border.pts, x ∈ Multiregion.interior m ∪ Multiregion.pts m := fun x hx =>
        (h2 hx).imp (fun h => ⟨c, hcm, h⟩) fun h => ⟨c, hcm, h⟩
      refine ⟨fun x hx => inn x hx.1, ?_, ⟨w, .inr ⟨d, hd', w1⟩, inn w w2⟩, y, ⟨c, hcm, y1⟩, .inl y2⟩
      rintro x (hx | hx)
      · exact bor x hx
      · exact (hd.inside x hx).elim (fun h => .inl (inn x h)) (bor x)
    · refine ⟨.encloses, by simp [hne, hr, bind, Except.bind, pure, Except.pure], .inl ?_⟩
      obtain ⟨h1, h2⟩ := h
      obtain ⟨y, hy⟩ := hg.border.exists_mem
      have inn : ∀ x ∈ g.border.interior, x ∈ Multiregion.interior m := fun x hx =>
        ⟨c, hcm, by rwa [h1]⟩
      have bor : ∀ x ∈ g.border.pts, x ∈ Multiregion.pts m := fun x hx => ⟨c, hcm, by rwa [h2]⟩
      refine ⟨fun x hx => inn x hx.1, ?_, ⟨w, .inr ⟨d, hd', w1⟩, inn w w2⟩, y, bor y hy, .inl hy⟩
      rintro x (hx | hx)
      · exact .inr (bor x hx)
      · exact (hd.inside x hx).elim (fun h => .inl (inn x h)) fun h => .inr (bor x h)
  · obtain ⟨e1, e2, e3⟩ := multiregion_parts hs.inside hs.outside hs.all
    have hS := hm.sublist hs.inside
    have hQ := hm.sublist hs.outside
    have qi : ∀ x, x ∈ g.border.interior ∨ x ∈ g.border.pts →
        x ∈ Multiregion.interior Q ∨ x ∈ Multiregion.pts Q → x ∈ g.border.pts ∧ x ∈ Multiregion.pts Q := by
      rintro x hx (⟨c, hcm, h⟩ | ⟨c, hcm, h⟩)
      · have := RegionRel.outer_or (hs.outer c hcm) ⟨.inl h, hx⟩
        exact ⟨this.2, c, hcm, this.1⟩
      · have := RegionRel.outer_or (hs.outer c hcm) ⟨.inr h, hx⟩
        exact ⟨this.2, c, hcm, this.1⟩
    have touch : if nt then ∀ x, x ∈ Multiregion.pts S ∨ x ∈ Multiregion.pts Q → x ∉ g.border.pts
        else ∃ x, (x ∈ Multiregion.pts S ∨ x ∈ Multiregion.pts Q) ∧ x ∈ g.border.pts := by
      have eq : ∀ x, (x ∈ Multiregion.pts S ∨ x ∈ Multiregion.pts Q) ↔ x ∈ Multiregion.pts m := fun x => by
        rw [e2]; rfl
      simp only [eq]
      cases hnt : nt
      · obtain ⟨c, hcm, h⟩ := hs.touch hnt
        have : (Contour.pts c ∩ g.border.pts).Nonempty := by
          rcases h with h | h
          · exact h.2.2.2
          · exact h.1
        obtain ⟨x, x1, x2⟩ := this
        exact ⟨x, ⟨c, hcm, x1⟩, x2⟩
      · rintro x ⟨c, hcm, hx⟩ hx'
        rcases hs.apart hnt c hcm with h | h
        · have h : Contour.interior c ∪ Contour.pts c ⊆ g.border.interior := h
          exact sb.ib x (h (.inr hx)) hx'
        · have h : (Contour.interior c ∪ Contour.pts c) ∩ (g.border.interior ∪ g.border.pts) = ∅ := h
          exact Set.eq_empty_iff_forall_notMem.mp h x ⟨.inr hx, .inr hx'⟩
    have hr' : polygon.relateMultiregionLoop g.border (context.contourBox g.border) context m true [] =
        .ok (.inr (nt, S)) := by simpa using hr
    simp only [hr', if_neg hne, bind, Except.bind, pure, Except.pure]
    have parts : ∀ {r}, CompoundRel (Multiregion.interior S ∪ Multiregion.interior Q)
        (Multiregion.pts S ∪ Multiregion.pts Q) (Multiregion.exterior S ∩ Multiregion.exterior Q)
        g.interior g.pts g.exterior r → MultiregionRel m g r := by
      intro r h
      unfold MultiregionRel
      rwa [e1, e2, e3]
    by_cases hSe : S = []
    · subst hSe
      refine ⟨if nt then .disjoint else .touch, by simp, .inl (parts ?_)⟩
      have n1 : Multiregion.interior ([] : List (Contour K)) = ∅ := by ext x; simp [Multiregion.interior]
      have n2 : Multiregion.pts ([] : List (Contour K)) = ∅ := by ext x; simp [Multiregion.pts]
      rw [n1, n2]
      have qi' : ∀ x, (x ∈ g.interior ∨ x ∈ g.pts) → x ∈ Multiregion.interior Q ∨ x ∈ Multiregion.pts Q →
          x ∈ g.border.pts ∧ x ∈ Multiregion.pts Q := by
        rintro x (hx | hx | hx) h
        · exact qi x (.inl hx.1) h
        · exact qi x (.inr hx) h
        · exact qi x (hd.inside x hx) h
      cases nt
      · obtain ⟨x, x1, x2⟩ := touch
        replace x1 := x1.resolve_left fun ⟨c, h, _⟩ => by simp at h
        simp only [Bool.false_eq_true, if_false, Set.empty_union]
        exact ⟨⟨x, x1, .inl x2⟩, fun y ⟨y1, y2⟩ => ⟨(qi' y y2 y1).2, .inl (qi' y y2 y1).1⟩⟩
      · simp only [if_true, Set.empty_union]
        refine Set.eq_empty_iff_forall_notMem.mpr fun y ⟨y1, y2⟩ => ?_
        have := qi' y y2 y1
        exact touch y (.inr this.2) this.1
    · obtain ⟨r, hr, h⟩ := C38_multiregion_in_multiregion hc hS hg.holes hSe hne
      have hr : multiregion.relateMultiregion g.holes S context = .ok r := hr
      have key := multiregion_or hd hS.split hQ.split (by rw [← e1, ← e2, ← e3]; exact hm.split) qi (fun x ⟨c, hcm, hx⟩ =>
          (RegionRel.enclosed_or (hs.inner c hcm)).1 hx) (fun x ⟨c, hcm, hx⟩ =>
          (RegionRel.enclosed_or (hs.inner c hcm)).2 hx) touch h (multiregion_nonempty hS hSe) nh
        hg.border.exists_mem (all := decide (S.length = m.length)) ?_ ?_ ?_ ?_ (by rw [← e1, ← e2, ← e3]; exact hq)
      · refine ⟨_, ?_, key.imp parts (.imp (.imp_right (.imp parts parts)) (.imp_right (.imp parts parts)))⟩
        rw [if_pos hSe, hr]
        cases r <;> rfl
      · intro e
        have : Q = [] := by
          have := hs.length
          rw [decide_eq_true_eq] at e
          exact List.eq_nil_of_length_eq_zero (by omega)
        subst this
        exact ⟨fun x ⟨c, h, _⟩ => by simp at h, fun x ⟨c, h, _⟩ => by simp at h⟩
      · intro e
        have : Q ≠ [] := by
          rintro rfl
          have := hs.length
          rw [decide_eq_false_iff_not] at e
          simp at this; omega
        exact (multiregion_nonempty hQ this).1
      · intro z z1 z2
        obtain ⟨y, y1, y2⟩ := ((hg.near hS.areal (.inr z1)).1 z2).1
        exact ⟨y, y1, y2⟩
      · obtain ⟨c, hcm⟩ := List.exists_mem_of_ne_nil _ hSe
        rcases hs.inner c hcm with k | k
        · have k : Contour.interior c ∪ Contour.pts c ⊆ g.border.interior := k
          obtain ⟨x, hx⟩ := (hm.simple c (hs.inside.subset hcm)).exists_mem
          exact ⟨x, ⟨c, hcm, hx⟩, k (.inr hx)⟩
        · obtain ⟨x, x1, x2⟩ := k.2.2.1
          exact ⟨x, ⟨c, hcm, x1⟩, x2⟩

/-- Two valid polygons are in exactly one relation. -/
theorem C72_polygon_relation {t g : Polygon K} (ht : t.Valid) (hg : g.Valid) : ∃! r, PolygonRel t g r := by
  obtain ⟨r, hr⟩ := exists_rel ht.split hg.split (ht.beside hg.areal) (hg.beside ht.areal)
  obtain ⟨a1, a2, a3⟩ := polygon_apart ht
  obtain ⟨b1, b2, b3⟩ := polygon_apart hg
  obtain ⟨j1, j2⟩ := polygon_nonempty ht
  obtain ⟨k1, k2⟩ := polygon_nonempty hg
  exact ⟨r, hr, fun r' h' => CompoundRel.unique j1 j2 k1 k2 a1 a2 b1 b2 h' hr⟩

/-- A valid multiregion and a valid polygon are in exactly one relation. -/
theorem C72_multiregion_relation {m : Multiregion K} {g : Polygon K} (hm : Multiregion.Valid m) (hne : m ≠ [])
    (hg : g.Valid) : ∃! r, MultiregionRel m g r := by
  obtain ⟨r, hr⟩ := exists_rel hm.split hg.split (hm.beside hg.areal) (hg.beside hm.areal)
  obtain ⟨a1, a2, a3⟩ := multiregion_apart hm
  obtain ⟨b1, b2, b3⟩ := polygon_apart hg
  obtain ⟨j1, j2⟩ := multiregion_nonempty hm hne
  obtain ⟨k1, k2⟩ := polygon_nonempty hg
  exact ⟨r, hr, fun r' h' => CompoundRel.unique j1 j2 k1 k2 a1 a2 b1 b2 h' hr⟩

/-- A polygon is `COMPONENT` of another one only if the interior of the other one is not connected. -/
theorem C72_component {t g : Polygon K} (ht : t.Valid) (hg : g.Valid) (h : PolygonRel t g .component) :
    ¬ g.Connected := by
  intro hgc
  obtain ⟨h1, h2, w, w1, w2⟩ := h
  obtain ⟨x, hx⟩ := (polygon_nonempty ht).1
  exact ht.split.ie w (ht.interior_of_joined hx ((hgc x (h1 hx) w w2).avoid fun r _ hr hm => hr (h2 hm))
    fun hm => hg.split.ib w w2 (h2 hm)) w1

theorem C72_composite {t g : Polygon K} (ht : t.Valid) (hg : g.Valid) (h : PolygonRel t g .composite) :
    ¬ t.Connected :=
  C72_component hg ht (CompoundRel.swap h)

/-- C72: `polygon_in_polygon` always answers for valid polygons, and all of its wrong answers are named: `WITHIN`
for `ENCLOSED` and `COVER` for `ENCLOSES` if a hole is overlooked, `OVERLAP` for `TOUCH` if neither interior is
connected, `ENCLOSED` for `COMPONENT` and `ENCLOSES` for `COMPOSITE` if the interior of the second or the first polygon is
not connected. -/
theorem C72_polygon_in_polygon {context : Context K} (hc : context.Exact) {t g : Polygon K} (ht : t.Valid)
    (hg : g.Valid) {r' : Relation} (h' : PolygonRel t g r') :
    ∃ r, planar.polygonInPolygon t g context = .ok r ∧
      (r = r' ∨ (r = .within ∧ r' = .enclosed ∧ Overlooked t g) ∨ (r = .cover ∧ r' = .encloses ∧ Overlooked g t) ∨
        (r = .overlap ∧ r' = .touch ∧ ¬ t.Connected ∧ ¬ g.Connected) ∨
        (r = .enclosed ∧ r' = .component ∧ ¬ g.Connected) ∨ (r = .encloses ∧ r' = .composite ∧ ¬ t.Connected)) := by
  have eq : ∀ {q}, PolygonRel t g q → q = r' := fun h => (C72_polygon_relation ht hg).unique h h'
  obtain ⟨r, hr, h | ⟨rfl, o, h⟩ | ⟨rfl, o, h⟩ | ⟨rfl, o, h⟩ | ⟨rfl, h⟩ | ⟨rfl, h⟩⟩ := polygon_in_polygon_all hc ht hg
  · exact ⟨r, hr, .inl (eq h)⟩
  · exact ⟨_, hr, .inr (.inl ⟨rfl, (eq h).symm, o⟩)⟩
  · exact ⟨_, hr, .inr (.inr (.inl ⟨rfl, (eq h).symm, o⟩))⟩
  · exact ⟨_, hr, .inr (.inr (.inr (.inl ⟨rfl, (eq h).symm, o⟩)))⟩
  · exact ⟨_, hr, .inr (.inr (.inr (.inr (.inl ⟨rfl, (eq h).symm, C72_component ht hg h⟩))))⟩
  · exact ⟨_, hr, .inr (.inr (.inr (.inr (.inr ⟨rfl, (eq h).symm, C72_composite ht hg h⟩))))⟩

/-- The answers about two polygons. -/
def solidRelations : List Relation := [.disjoint, .touch, .overlap, .cover, .encloses, .equal, .enclosed, .within]

theorem holesLoop_solid {context : Context K} (hc : context.Exact) {b : Contour K} (hb : b.Simple)
    {m : List (Contour K)} (hm : ∀ c ∈ m, Contour.Simple c) {r : Relation}
    (h : polygon.holesLoop b (context.contourBox b) context m true [] = .ok (.inl r)) : r ∈ solidRelations := by
  rcases holesLoop_spec hc hb m hm true [] with ⟨d, hd, r', hr, hx⟩ | ⟨S, Q, nt, hs, hx⟩
  · rcases hx with ⟨hx, -⟩ | ⟨hx, -⟩ | ⟨hx, -⟩ <;>
    · rw [h] at hx
      cases hx
      simp [solidRelations]
  · rw [h] at hx
    cases hx

theorem polygon_in_polygon_solid {context : Context K} (hc : context.Exact) {t g : Polygon K} (ht : t.Valid)
    (hg : g.Valid) : AnswersIn solidRelations (planar.polygonInPolygon t g context) := by
  have et := IsBoxOf.unique (hc.polygonBox t ht.border.ne_nil) (hc.contourBox _ ht.border.ne_nil)
  have eg := IsBoxOf.unique (hc.polygonBox g hg.border.ne_nil) (hc.contourBox _ hg.border.ne_nil)
  unfold planar.polygonInPolygon polygon.relatePolygon
  simp only [et, eg]
  refine AnswersIn.bind fun r hr => ?_
  obtain ⟨rb, hrb, h⟩ := C32_region_in_region hc ht.border hg.border
  have hrb : region.relateRegionBoxed g.border t.border (context.contourBox g.border)
    (context.contourBox t.border) context = .ok rb := hrb
  rw [hrb] at hr
  cases hr
  have h1 : r ≠ .component := by rintro rfl; exact ht.border.not_component hg.border h
  have h2 : r ≠ .composite := by rintro rfl; exact ht.border.not_composite hg.border h
  have h3 : r ≠ .cross := by rintro rfl; exact h.elim
  clear hrb h
  cases r <;> first | contradiction | skip
  all_goals simp only [] <;>
    (repeat' first
      | (refine AnswersIn.pure ?_; simp [solidRelations]; done)
      | (refine AnswersIn.pure ?_; split_ifs <;> simp_all [solidRelations]; done)
      | (refine AnswersIn.pure ?_; split <;> (try split_ifs) <;> simp_all [solidRelations]; done)
      | (refine AnswersIn.pure ?_; exact holesLoop_solid hc ht.border hg.holes.simple (by assumption))
      | (refine AnswersIn.pure ?_; exact holesLoop_solid hc hg.border ht.holes.simple (by assumption))
      | (refine AnswersIn.bind fun q hq => ?_)
      | split)

/-- C72: `COMPONENT` and `COMPOSITE` are never answered about two polygons, so the answer is wrong whenever one of them
is right: it is `ENCLOSED` and `ENCLOSES` then. -/
theorem C72_never {context : Context K} (hc : context.Exact) {t g : Polygon K} (ht : t.Valid) (hg : g.Valid) :
    (PolygonRel t g .component → planar.polygonInPolygon t g context = .ok .enclosed) ∧
      (PolygonRel t g .composite → planar.polygonInPolygon t g context = .ok .encloses) := by
  have key := polygon_in_polygon_solid hc ht hg
  refine ⟨fun h => ?_, fun h => ?_⟩
  · obtain ⟨r, hr, rfl | ⟨-, h, -⟩ | ⟨-, h, -⟩ | ⟨-, h, -⟩ | ⟨rfl, -⟩ | ⟨-, h, -⟩⟩ := C72_polygon_in_polygon hc ht hg h
    · exact absurd (key _ hr) (by decide)
    all_goals first | cases h; done | exact hr
  · obtain ⟨r, hr, rfl | ⟨-, h, -⟩ | ⟨-, h, -⟩ | ⟨-, h, -⟩ | ⟨-, h, -⟩ | ⟨rfl, -⟩⟩ := C72_polygon_in_polygon hc ht hg h
    · exact absurd (key _ hr) (by decide)
    all_goals first | cases h; done | exact hr

/-- C72: `multiregion_in_polygon` always answers for a valid multiregion and a valid polygon, and all of its wrong
answers are named: `OVERLAP` for `ENCLOSES` or `COMPOSITE` and `ENCLOSED` for `COMPONENT` or `EQUAL`, each only if the
interior of the polygon is not connected. -/
theorem C72_multiregion_in_polygon {context : Context K} (hc : context.Exact) {m : Multiregion K} {g : Polygon K}
    (hm : Multiregion.Valid m) (hne : m ≠ []) (hg : g.Valid) {r' : Relation} (h' : MultiregionRel m g r') :
    ∃ r, planar.multiregionInPolygon m g context = .ok r ∧
      (r = r' ∨ (¬ g.Connected ∧ ((r = .overlap ∧ (r' = .encloses ∨ r' = .composite)) ∨
        (r = .enclosed ∧ (r' = .component ∨ r' = .equal))))) := by
  have eq : ∀ {q}, MultiregionRel m g q → q = r' := fun h => (C72_multiregion_relation hm hne hg).unique h h'
  by_cases hcn : g.Connected
  · obtain ⟨r, hr, h⟩ := C26_multiregion_in_polygon hc hm hg (.inr hcn)
    exact ⟨r, hr, .inl (eq h)⟩
  · obtain ⟨r, hr, h | ⟨rfl, h | h⟩ | ⟨rfl, h | h⟩⟩ := multiregion_in_polygon_all hc hm hg
    · exact ⟨r, hr, .inl (eq h)⟩
    · exact ⟨_, hr, .inr ⟨hcn, .inl ⟨rfl, .inl (eq h).symm⟩⟩⟩
    · exact ⟨_, hr, .inr ⟨hcn, .inl ⟨rfl, .inr (eq h).symm⟩⟩⟩
    · exact ⟨_, hr, .inr ⟨hcn, .inr ⟨rfl, .inl (eq h).symm⟩⟩⟩
    · exact ⟨_, hr, .inr ⟨hcn, .inr ⟨rfl, .inr (eq h).symm⟩⟩⟩

theorem multiregion_in_polygon_solid {context : Context K} (hc : context.Exact) {m : Multiregion K} {g : Polygon K}
    (hm : Multiregion.Valid m) (hg : g.Valid) (hh : g.holes ≠ []) :
    AnswersIn [.disjoint, .touch, .overlap, .cover, .encloses, .enclosed, .within]
      (planar.multiregionInPolygon m g context) := by
  unfold planar.multiregionInPolygon polygon.relateMultiregion
  rw [if_neg hh]
  refine AnswersIn.bind fun r hr => ?_
  rcases relateMultiregionLoop_spec hc hg.border m hm.simple true [] with
    ⟨c, hcm, q, h, ⟨hx, hq⟩ | ⟨hx, hq⟩⟩ | ⟨S, Q, nt, hs, hx⟩
  · rw [hx] at hr
    cases hr
    rcases hq with rfl | rfl | rfl <;> exact AnswersIn.pure (by simp)
  · rw [hx] at hr
    cases hr
    exact AnswersIn.pure (by simp)
  · rw [hx] at hr
    cases hr
    simp only []
    repeat' first
      | (refine AnswersIn.pure ?_; simp; done)
      | (refine AnswersIn.pure ?_; split_ifs <;> simp_all; done)
      | (refine AnswersIn.pure ?_; split <;> (try split_ifs) <;> simp_all; done)
      | (refine AnswersIn.bind fun q hq => ?_)
      | split

/-- C72: `COMPONENT`, `COMPOSITE` and `EQUAL` are never answered about a multiregion and a polygon with holes, so the
answer is wrong whenever one of them is right. -/
theorem C72_never_multiregion {context : Context K} (hc : context.Exact) {m : Multiregion K} {g : Polygon K}
    (hm : Multiregion.Valid m) (hne : m ≠ []) (hg : g.Valid) (hh : g.holes ≠ []) :
    (MultiregionRel m g .component → planar.multiregionInPolygon m g context = .ok .enclosed) ∧
      (MultiregionRel m g .equal → planar.multiregionInPolygon m g context = .ok .enclosed) ∧
      (MultiregionRel m g .composite → planar.multiregionInPolygon m g context = .ok .overlap) := by
  have key := multiregion_in_polygon_solid hc hm hg hh
  refine ⟨fun h => ?_, fun h => ?_, fun h => ?_⟩ <;>
  · obtain ⟨r, hr, rfl | ⟨-, ⟨rfl, k | k⟩ | ⟨rfl, k | k⟩⟩⟩ := C72_multiregion_in_polygon hc hm hne hg h
    · exact absurd (key _ hr) (by decide)
    all_goals first | exact hr | cases k; done

end Props
end Orient
