import Verif.Props.DisconnectedExamples
import Verif.Spec.Pairs

/-! C76: what is answered about two polygons, and about a multiregion and a polygon, without exceptions.

C72 names the answers which may be wrong.  Here it is said when they are. -/

set_option linter.unusedSectionVars false

namespace Orient

variable {K : Type} [Field K] [LinearOrder K] [IsStrictOrderedRing K]

namespace Props

theorem regions_unique {a b : Contour K} (ha : a.Simple) (hb : b.Simple) {r r' : Relation} (h : RegionRel a b r)
    (h' : RegionRel a b r') : r = r' := by
  have sa := ha.split
  have sb := hb.split
  have em : ∀ {A B : Set (Point K)}, (∀ x ∈ A, x ∉ B) → A ∩ B = ∅ := fun k =>
    Set.eq_empty_iff_forall_notMem.mpr fun x hx => k x hx.1 hx.2
  exact CompoundRel.unique ha.interior_nonempty ha.exists_mem hb.interior_nonempty hb.exists_mem (em sa.ib)
    (em sa.ie) (em sb.ib) (em sb.ie) h h'

theorem complement_twice (r : Relation) : r.complement.complement = r := by cases r <;> rfl

/-- A region contains another one exactly if the relation is one of three. -/
theorem contains_iff {b d : Contour K} (hb : b.Simple) (hd : d.Simple) {r : Relation} (h : RegionRel d b r) :
    b.interior ⊆ d.interior ↔ r = .cover ∨ r = .encloses ∨ r = .equal := by
  obtain ⟨x, hx⟩ := hb.interior_nonempty
  constructor
  · intro hs
    have out : ∀ {r}, r = .within ∨ r = .enclosed → RegionRel d b r → False := fun hr h' => by
      obtain ⟨z, z1, z2⟩ := hd.border_outside hb hr h'
      obtain ⟨y, y1, y2⟩ := (hd.near hb z1).2 z2
      exact Contour.not_both (hs y1) y2
    cases r
    case cover => simp
    case encloses => simp
    case equal => simp
    case cross => exact h.elim
    case composite => exact absurd h (hd.not_composite hb)
    case component => exact absurd h (hd.not_component hb)
    case within => exact (out (.inl rfl) h).elim
    case enclosed => exact (out (.inr rfl) h).elim
    case disjoint =>
      exact absurd (RegionRel.outer_or (.inl h) ⟨.inl (hs hx), .inl hx⟩).2 (hb.split.ib x hx)
    case touch =>
      exact absurd (RegionRel.outer_or (.inr h) ⟨.inl (hs hx), .inl hx⟩).2 (hb.split.ib x hx)
    case overlap =>
      obtain ⟨-, -, y, y1, y2⟩ := h
      exact absurd y1 (Contour.not_both (hs y2))
  · rintro (rfl | rfl | rfl)
    · have h : b.interior ∪ b.pts ⊆ d.interior := h
      exact fun y hy => h (.inl hy)
    · exact h.1
    · exact h.1.symm.subset

theorem contained_iff {b d : Contour K} (hb : b.Simple) (hd : d.Simple) {r : Relation} (h : RegionRel d b r) :
    d.interior ⊆ b.interior ↔ r = .within ∨ r = .enclosed ∨ r = .equal := by
  rw [contains_iff hd hb (CompoundRel.swap h)]
  cases r <;> simp [Relation.complement]

/-- If one region contains a further one, then no other one overlaps with it. -/
theorem contains_alone {m : Multiregion K} (hm : Multiregion.Valid m) {b c d : Contour K} (hc : c ∈ m)
    (hd : d ∈ m) (h : b.interior ⊆ Contour.interior c) (ho : RegionRel d b .overlap) : False := by
  obtain ⟨⟨x, x1, x2⟩, -, y, y1, y2⟩ := ho
  by_cases e : c = d
  · subst e
    exact Contour.not_both (h y2) y1
  · have sym : Std.Symm fun a b : Contour K => a.interior ∩ b.interior = ∅ := ⟨fun a b h => by rwa [Set.inter_comm]⟩
    have := (hm.apart.imp fun h => h.1).forall hc hd e
    exact Set.eq_empty_iff_forall_notMem.mp this x ⟨h x2, x1⟩

theorem innerAnswer_exact {context : Context K} (hc : context.Exact) {t g : Polygon K}
    (ht : t.Valid) (hg : g.Valid) {rb : Relation} (hrb : rb = .within ∨ rb = .enclosed) {r : Relation}
    (h : innerAnswer context g t rb = .ok r) :
    (r = .disjoint ∨ r = .touch ∨ r = .overlap ∨ r = .enclosed ∨ r = .within) ∧
      (r = .disjoint ∨ r = .touch ↔ ∃ d ∈ g.holes, t.border.interior ⊆ Contour.interior d) ∧
      (r = .within → rb = .within ∧ ∀ d ∈ g.holes, Contour.interior d ⊆ t.border.interior →
        Contour.interior d ∪ Contour.pts d ⊆ Multiregion.interior t.holes) ∧
      (r = .within → (∃ d ∈ g.holes, Contour.interior d ⊆ t.border.interior) ∨
        ∀ d ∈ g.holes, RegionRel d t.border .disjoint) ∧
      (rb = .within → (∃ d ∈ g.holes, Contour.interior d ⊆ t.border.interior) →
        (∀ d ∈ g.holes, Contour.interior d ⊆ t.border.interior →
          Contour.interior d ∪ Contour.pts d ⊆ Multiregion.interior t.holes) → r ≠ .enclosed) := by
  unfold innerAnswer at h
  by_cases hne : g.holes = []
  · rw [if_neg (not_not.mpr hne)] at h
    cases h
    rcases hrb with rfl | rfl <;> simp [hne]
  rw [if_pos hne] at h
  rcases holesLoop_spec hc ht.border g.holes hg.holes.simple true [] with
    ⟨d, hd, q, hq, hx⟩ | ⟨S, Q, nt, hs, hx⟩
  · have hds := hg.holes.simple d hd
    have con := contains_iff ht.border hds hq
    rcases hx with ⟨hx, rfl⟩ | ⟨hx, rfl⟩ | ⟨hx, hq'⟩
    · rw [hx] at h
      cases h
      refine ⟨by simp, ?_, by simp, by simp, by simp⟩
      simp only [reduceCtorEq, or_self, false_iff]
      rintro ⟨c, hcm, k⟩
      exact contains_alone hg.holes hcm hd k hq
    · rw [hx] at h
      cases h
      refine ⟨by simp, ?_, by simp, by simp, by simp⟩
      simp only [true_or, true_iff]
      exact ⟨d, hd, con.mpr (by simp)⟩
    · rw [hx] at h
      cases h
      refine ⟨by simp, ?_, by simp, by simp, by simp⟩
      simp only [or_true, true_iff]
      exact ⟨d, hd, con.mpr (.inr hq')⟩
  have hx : polygon.holesLoop t.border (context.contourBox t.border) context g.holes true [] =
      .ok (.inr (nt, S)) := by simpa using hx
  simp only [hx, bind, Except.bind, pure, Except.pure] at h
  have hS := hg.holes.sublist hs.inside
  -- no hole contains the border
  have none : ¬ ∃ d ∈ g.holes, t.border.interior ⊆ Contour.interior d := by
    rintro ⟨d, hd, k⟩
    have hds := hg.holes.simple d hd
    rcases hs.all d hd with hd' | hd'
    · rcases hs.inner d hd' with h' | h' <;> simpa using (contains_iff ht.border hds h').mp k
    · rcases hs.outer d hd' with h' | h' <;> simpa using (contains_iff ht.border hds h').mp k
  have mem : ∀ d ∈ g.holes, Contour.interior d ⊆ t.border.interior ↔ d ∈ S := by
    intro d hd
    have hds := hg.holes.simple d hd
    refine ⟨fun k => (hs.all d hd).resolve_right fun hd' => ?_, fun hd' => ?_⟩
    · rcases hs.outer d hd' with h' | h' <;> simpa using (contained_iff ht.border hds h').mp k
    · rcases hs.inner d hd' with h' | h' <;> exact (contained_iff ht.border hds h').mpr (by simp)
  have ins : (∀ d ∈ g.holes, Contour.interior d ⊆ t.border.interior →
      Contour.interior d ∪ Contour.pts d ⊆ Multiregion.interior t.holes) ↔
      Multiregion.interior S ∪ Multiregion.pts S ⊆ Multiregion.interior t.holes := by
    constructor
    · rintro k x (⟨d, hd, hx⟩ | ⟨d, hd, hx⟩)
      · exact k d (hs.inside.subset hd) ((mem d (hs.inside.subset hd)).mpr hd) (.inl hx)
      · exact k d (hs.inside.subset hd) ((mem d (hs.inside.subset hd)).mpr hd) (.inr hx)
    · intro k d hd hd'
      have hd' := (mem d hd).mp hd'
      rintro x (hx | hx)
      · exact k (.inl ⟨d, hd', hx⟩)
      · exact k (.inr ⟨d, hd', hx⟩)
  have some : (∃ d ∈ g.holes, Contour.interior d ⊆ t.border.interior) ↔ S ≠ [] := by
    constructor
    · rintro ⟨d, hd, k⟩ e
      have := (mem d hd).mp k
      simp [e] at this
    · intro k
      obtain ⟨d, hd⟩ := List.exists_mem_of_ne_nil _ k
      exact ⟨d, hs.inside.subset hd, (mem d (hs.inside.subset hd)).mpr hd⟩
  rw [ins, some]
  simp only [none, iff_false]
  by_cases hSe : S = []
  · subst hSe
    simp only [ne_eq, not_true_eq_false, if_false, Except.ok.injEq] at h
    have e : Multiregion.interior ([] : List (Contour K)) ∪ Multiregion.pts [] = ∅ := by
      ext x; simp [Multiregion.interior, Multiregion.pts]
    simp only [e, Set.empty_subset, and_true, not_true_eq_false, ne_eq, false_or, IsEmpty.forall_iff, implies_true]
    subst h
    refine ⟨?_, ?_, ?_, ?_⟩
    · rcases hrb with rfl | rfl <;> cases nt <;> simp
    · rcases hrb with rfl | rfl <;> cases nt <;> simp
    · rcases hrb with rfl | rfl <;> cases nt <;> simp
    · intro k d hd
      have hnt : nt = true := by
        by_contra hn
        rw [Bool.not_eq_true] at hn
        simp [hn] at k
      exact hs.apart hnt d ((hs.all d hd).resolve_left (by simp))
  rw [if_pos hSe] at h
  by_cases hj : t.holes = []
  · simp only [hj, ne_eq, not_true_eq_false, if_false, Except.ok.injEq] at h
    subst h
    simp
  rw [if_pos hj] at h
  obtain ⟨q, hq, hrel⟩ := C38_multiregion_in_multiregion hc hS ht.holes hSe hj
  have hq : multiregion.relateMultiregion t.holes S context = .ok q := hq
  rw [hq] at h
  obtain ⟨a1, a2, -⟩ := multiregion_apart hS
  obtain ⟨b1, b2, -⟩ := multiregion_apart ht.holes
  obtain ⟨j1, j2⟩ := multiregion_nonempty hS hSe
  obtain ⟨k1, k2⟩ := multiregion_nonempty ht.holes hj
  have wi : Multiregion.interior S ∪ Multiregion.pts S ⊆ Multiregion.interior t.holes ↔ q = .within := by
    constructor
    · intro k
      exact CompoundRel.unique j1 j2 k1 k2 a1 a2 b1 b2 hrel (r' := .within) k
    · rintro rfl
      exact hrel
  rw [wi]
  simp only [Except.ok.injEq] at h
  subst h
  rcases hrb with rfl | rfl <;> cases q <;> simp [hSe]

/-- How the answer depends on the relation of the borders. -/
theorem polygon_in_polygon_table {context : Context K} (hc : context.Exact) {t g : Polygon K}
    (ht : t.Valid) (hg : g.Valid) {rb : Relation} (h : RegionRel t.border g.border rb) {r : Relation}
    (hr : planar.polygonInPolygon t g context = .ok r) :
    (rb = .disjoint ∨ rb = .touch → r = rb) ∧ (rb = .overlap → r = .overlap) ∧
      (rb = .equal → r = .overlap ∨ r = .encloses ∨ r = .equal ∨ r = .enclosed) ∧
      (rb = .within ∨ rb = .enclosed → innerAnswer context g t rb = .ok r) ∧
      (rb = .cover ∨ rb = .encloses → innerAnswer context t g rb.complement = .ok r.complement) := by
  have et := IsBoxOf.unique (hc.polygonBox t ht.border.ne_nil) (hc.contourBox _ ht.border.ne_nil)
  have eg := IsBoxOf.unique (hc.polygonBox g hg.border.ne_nil) (hc.contourBox _ hg.border.ne_nil)
  have hrb : region.relateRegionBoxed g.border t.border (context.contourBox g.border)
      (context.contourBox t.border) context = .ok rb := by
    obtain ⟨rb', hrb, h'⟩ := C32_region_in_region hc ht.border hg.border
    obtain rfl := regions_unique ht.border hg.border h h'
    exact hrb
  unfold planar.polygonInPolygon polygon.relatePolygon at hr
  simp only [et, eg, hrb, bind, Except.bind, pure, Except.pure] at hr
  cases rb
  case component => exact absurd h (ht.border.not_component hg.border)
  case composite => exact absurd h (ht.border.not_composite hg.border)
  case cross => exact h.elim
  case disjoint => cases hr; simp
  case touch => cases hr; simp
  case overlap => cases hr; simp
  case equal =>
    refine ⟨by simp, by simp, fun _ => ?_, by simp, by simp⟩
    by_cases hj : t.holes = [] <;> by_cases hh : g.holes = []
    · simp [hj, hh] at hr; simp [← hr]
    · simp [hj, hh] at hr; simp [← hr]
    · simp [hj, hh] at hr; simp [← hr]
    · obtain ⟨q, hq, -⟩ := C38_multiregion_in_multiregion hc hg.holes ht.holes hh hj
      have hq : multiregion.relateMultiregion t.holes g.holes context = .ok q := hq
      rw [if_pos ⟨hh, hj⟩, hq] at hr
      cases q <;> simp at hr <;> simp [← hr]
  case within =>
    refine ⟨by simp, by simp, by simp, fun _ => ?_, by simp⟩
    obtain ⟨q, hq, -⟩ := innerAnswer_all hc ht hg (.inl rfl) h
    rw [← hr]
    unfold innerAnswer
    by_cases hh : g.holes = []
    · simp [hh, pure, Except.pure]
    · simp only [if_pos hh, bind, Except.bind, pure, Except.pure]
      rfl
  case enclosed =>
    refine ⟨by simp, by simp, by simp, fun _ => ?_, by simp⟩
    rw [← hr]
    unfold innerAnswer
    by_cases hh : g.holes = []
    · simp [hh, pure, Except.pure]
    · simp only [if_pos hh, bind, Except.bind, pure, Except.pure]
      rfl
  case cover =>
    refine ⟨by simp, by simp, by simp, by simp, fun _ => ?_⟩
    obtain ⟨q, hq, -⟩ := innerAnswer_all hc hg ht (.inl rfl) h.swap
    have := (mirrored hc hg.border ht (by simp) hq).symm.trans hr
    cases this
    rw [complement_twice]
    exact hq
  case encloses =>
    refine ⟨by simp, by simp, by simp, by simp, fun _ => ?_⟩
    obtain ⟨q, hq, -⟩ := innerAnswer_all hc hg ht (.inr rfl) h.swap
    have := (mirrored hc hg.border ht (by simp) hq).symm.trans hr
    cases this
    rw [complement_twice]
    exact hq

theorem inner_within_iff {context : Context K} (hc : context.Exact) {t g : Polygon K} (ht : t.Valid) (hg : g.Valid)
    {rb : Relation} (hrb : rb = .within ∨ rb = .enclosed) (h : RegionRel t.border g.border rb)
    (h' : PolygonRel t g .enclosed) {r : Relation} (hr : innerAnswer context g t rb = .ok r)
    (hr' : r = .enclosed ∨ r = .within) : r = .within ↔ t.LooksWithin g := by
  obtain ⟨-, -, k1, k2, k3⟩ := innerAnswer_exact hc ht hg hrb hr
  constructor
  · rintro rfl
    obtain ⟨rfl, k4⟩ := k1 rfl
    refine ⟨h, (k2 rfl).resolve_right fun k => ?_, k4⟩
    -- a hole touches the border, for otherwise the polygon would be within
    obtain ⟨q, hq, hw⟩ := innerAnswer_all hc ht hg (.inl rfl) h
    have e := hr.symm.trans hq
    cases e
    rcases hw with k' | ⟨-, o, -⟩ | ⟨e, -⟩ | ⟨e, -⟩
    · have := (C72_polygon_relation ht hg).unique h' k'
      cases this
    · obtain ⟨d, hd, o⟩ := o.1
      have := regions_unique (hg.holes.simple d hd) ht.border (k d hd) o
      cases this
    · cases e
    · cases e
  · rintro ⟨l1, l2, l3⟩
    have e : rb = .within := regions_unique ht.border hg.border h (r' := .within) l1
    exact hr'.resolve_left (k3 e l2 l3)

/-- `WITHIN` is answered for polygons which are `ENCLOSED` exactly if the polygon looks like that. -/
theorem within_iff {context : Context K} (hc : context.Exact) {t g : Polygon K} (ht : t.Valid) (hg : g.Valid)
    (h' : PolygonRel t g .enclosed) {r : Relation} (hr : planar.polygonInPolygon t g context = .ok r)
    (hr' : r = .enclosed ∨ r = .within) : r = .within ↔ t.LooksWithin g := by
  obtain ⟨rb, -, h⟩ := C32_region_in_region hc ht.border hg.border
  obtain ⟨t1, t2, t3, t4, t5⟩ := polygon_in_polygon_table hc ht hg h hr
  by_cases hrb : rb = .within ∨ rb = .enclosed
  · exact inner_within_iff hc ht hg hrb h h' (t4 hrb) hr'
  refine ⟨?_, fun k => absurd (.inl (regions_unique ht.border hg.border h (r' := .within) k.1)) hrb⟩
  rintro rfl
  exfalso
  cases rb
  case cover => simpa [Relation.complement] using (innerAnswer_exact hc hg ht (.inl rfl) (t5 (by simp))).1
  case encloses => simpa [Relation.complement] using (innerAnswer_exact hc hg ht (.inr rfl) (t5 (by simp))).1
  case component => exact absurd h (ht.border.not_component hg.border)
  case composite => exact absurd h (ht.border.not_composite hg.border)
  case cross => exact h.elim
  all_goals simp at t1 t2 t3 hrb

/-- `COVER` is answered for polygons which `ENCLOSE` the other one exactly if the other one looks like that. -/
theorem cover_iff {context : Context K} (hc : context.Exact) {t g : Polygon K} (ht : t.Valid) (hg : g.Valid)
    (h' : PolygonRel t g .encloses) {r : Relation} (hr : planar.polygonInPolygon t g context = .ok r)
    (hr' : r = .encloses ∨ r = .cover) : r = .cover ↔ g.LooksWithin t := by
  obtain ⟨rb, -, h⟩ := C32_region_in_region hc ht.border hg.border
  obtain ⟨t1, t2, t3, t4, t5⟩ := polygon_in_polygon_table hc ht hg h hr
  by_cases hrb : rb = .cover ∨ rb = .encloses
  · rw [← inner_within_iff hc hg ht (by rcases hrb with rfl | rfl <;> simp [Relation.complement])
      (CompoundRel.swap h) (CompoundRel.swap h') (t5 hrb) (by rcases hr' with rfl | rfl <;> simp [Relation.complement])]
    rcases hr' with rfl | rfl <;> simp [Relation.complement]
  refine ⟨?_, fun k => absurd (.inl (regions_unique ht.border hg.border h (r' := .cover) k.1)) hrb⟩
  rintro rfl
  exfalso
  cases rb
  case within => simpa using (innerAnswer_exact hc ht hg (.inl rfl) (t4 (by simp))).1
  case enclosed => simpa using (innerAnswer_exact hc ht hg (.inr rfl) (t4 (by simp))).1
  case component => exact absurd h (ht.border.not_component hg.border)
  case composite => exact absurd h (ht.border.not_composite hg.border)
  case cross => exact h.elim
  all_goals simp at t1 t2 t3 hrb

/-- `OVERLAP` is answered for polygons which `TOUCH` exactly if they are entangled. -/
theorem overlap_iff {context : Context K} (hc : context.Exact) {t g : Polygon K} (ht : t.Valid) (hg : g.Valid)
    {r : Relation} (hr : planar.polygonInPolygon t g context = .ok r)
    (hr' : r = .touch ∨ r = .overlap) : r = .overlap ↔ t.Entangled g := by
  obtain ⟨rb, -, h⟩ := C32_region_in_region hc ht.border hg.border
  obtain ⟨t1, t2, t3, t4, t5⟩ := polygon_in_polygon_table hc ht hg h hr
  obtain ⟨x, x1, x2⟩ := (polygon_nonempty ht).1
  obtain ⟨y, y1, y2⟩ := (polygon_nonempty hg).1
  have self : ∀ {p : Polygon K}, p.Valid → ∀ d ∈ p.holes, ¬ p.border.interior ⊆ Contour.interior d := by
    intro p hp d hd k
    obtain ⟨z, z1, z2⟩ := (polygon_nonempty hp).1
    exact hp.holed.holes.ie z ⟨d, hd, k z1⟩ z2
  have sym : t.Entangled g ↔ g.Entangled t := by
    unfold Polygon.Entangled
    rw [Set.inter_comm]
    tauto
  have inner : ∀ {t g : Polygon K} {rb r : Relation}, t.Valid → g.Valid → rb = .within ∨ rb = .enclosed →
      RegionRel t.border g.border rb → innerAnswer context g t rb = .ok r → r = .touch ∨ r = .overlap →
      (r = .overlap ↔ t.Entangled g) := by
    intro t g rb r ht hg hrb h hr hr'
    obtain ⟨z, z1, -⟩ := (polygon_nonempty ht).1
    have sub : t.border.interior ⊆ g.border.interior :=
      (RegionRel.enclosed_or (by rcases hrb with rfl | rfl; exacts [.inl h, .inr h])).1
    obtain ⟨-, k, -⟩ := innerAnswer_exact hc ht hg hrb hr
    have e : t.Entangled g ↔ ¬ ∃ d ∈ g.holes, t.border.interior ⊆ Contour.interior d := by
      refine ⟨fun h ⟨d, hd, h'⟩ => h.2.1 d hd h', fun h => ⟨⟨z, z1, sub z1⟩, fun d hd h' => h ⟨d, hd, h'⟩,
        fun d hd h' => self ht d hd (sub.trans h')⟩⟩
    rw [e, ← k]
    rcases hr' with rfl | rfl <;> simp
  cases rb
  case component => exact absurd h (ht.border.not_component hg.border)
  case composite => exact absurd h (ht.border.not_composite hg.border)
  case cross => exact h.elim
  case disjoint => simp [t1] at hr'
  case touch =>
    rw [t1 (by simp)]
    simp only [reduceCtorEq, false_iff]
    rintro ⟨⟨z, z1, z2⟩, -⟩
    exact ht.border.split.ib z z1 (RegionRel.outer_or (.inr h) ⟨.inl z1, .inl z2⟩).1
  case overlap =>
    rw [t2 rfl]
    simp only [true_iff]
    obtain ⟨h1, ⟨u, u1, u2⟩, ⟨v, v1, v2⟩⟩ := h
    exact ⟨h1, fun d hd k => Contour.not_both (hg.inside d hd (k u1)) u2, fun d hd k =>
      Contour.not_both (ht.inside d hd (k v2)) v1⟩
  case equal =>
    have e : r = .overlap := by
      rcases hr' with rfl | rfl
      · simp at t3
      · rfl
    rw [e]
    simp only [true_iff]
    obtain ⟨h1, -⟩ := h
    exact ⟨⟨x, x1, h1 ▸ x1⟩, h1 ▸ self hg, h1 ▸ self ht⟩
  case within => exact inner ht hg (.inl rfl) h (t4 (by simp)) hr'
  case enclosed => exact inner ht hg (.inr rfl) h (t4 (by simp)) hr'
  case cover =>
    have := inner hg ht (.inl rfl) (CompoundRel.swap h) (t5 (by simp)) (by rcases hr' with rfl | rfl <;> simp [Relation.complement])
    rw [sym, ← this]
    rcases hr' with rfl | rfl <;> simp [Relation.complement]
  case encloses =>
    have := inner hg ht (.inr rfl) (CompoundRel.swap h) (t5 (by simp)) (by rcases hr' with rfl | rfl <;> simp [Relation.complement])
    rw [sym, ← this]
    rcases hr' with rfl | rfl <;> simp [Relation.complement]

/-- `ENCLOSES` is answered exactly if a region contains the border. -/
theorem encloses_iff {context : Context K} (hc : context.Exact) {m : Multiregion K} {g : Polygon K}
    (hm : Multiregion.Valid m) (hg : g.Valid) (hh : g.holes ≠ []) {r : Relation}
    (hr : planar.multiregionInPolygon m g context = .ok r) (hr' : r = .encloses ∨ r = .overlap) :
    r = .encloses ↔ ∃ c ∈ m, g.border.interior ⊆ Contour.interior c := by
  unfold planar.multiregionInPolygon polygon.relateMultiregion at hr
  rw [if_neg hh] at hr
  rcases relateMultiregionLoop_spec hc hg.border m hm.simple true [] with
    ⟨c, hcm, q, h, ⟨hx, hq⟩ | ⟨hx, hq⟩⟩ | ⟨S, Q, nt, hs, hx⟩
  · simp only [hx, bind, Except.bind, pure, Except.pure, Except.ok.injEq] at hr
    subst hr
    rcases hq with rfl | rfl | rfl
    · simp only [reduceCtorEq, false_iff]
      rintro ⟨d, hd, k⟩
      exact contains_alone hm hd hcm k h
    · simp at hr'
    · simp only [true_iff]
      exact ⟨c, hcm, (contains_iff hg.border (hm.simple c hcm) h).mpr (by simp)⟩
  · simp only [hx, bind, Except.bind, pure, Except.pure, Except.ok.injEq] at hr
    subst hr hq
    simp only [true_iff]
    exact ⟨c, hcm, (contains_iff hg.border (hm.simple c hcm) h).mpr (by simp)⟩
  · have none : ¬ ∃ d ∈ m, g.border.interior ⊆ Contour.interior d := by
      rintro ⟨d, hd, k⟩
      have hds := hm.simple d hd
      rcases hs.all d hd with hd' | hd'
      · rcases hs.inner d hd' with h' | h' <;> simpa using (contains_iff hg.border hds h').mp k
      · rcases hs.outer d hd' with h' | h' <;> simpa using (contains_iff hg.border hds h').mp k
    simp only [none, iff_false]
    rintro rfl
    have hx : polygon.relateMultiregionLoop g.border (context.contourBox g.border) context m true [] =
      .ok (.inr (nt, S)) := by simpa using hx
    simp only [hx, bind, Except.bind, pure, Except.pure] at hr
    by_cases hSe : S = []
    · subst hSe
      cases nt <;> simp at hr
    · obtain ⟨q, hq, -⟩ := C38_multiregion_in_multiregion hc (hm.sublist hs.inside) hg.holes hSe hh
      have hq : multiregion.relateMultiregion g.holes S context = .ok q := hq
      rw [if_pos hSe, hq] at hr
      cases q <;> simp at hr <;> split_ifs at hr

/-- C76: the answer of `polygon_in_polygon` for any two valid polygons. -/
theorem C76_polygon_in_polygon {context : Context K} (hc : context.Exact) {t g : Polygon K} (ht : t.Valid)
    (hg : g.Valid) {r' : Relation} (h' : PolygonRel t g r') :
    ∃ r, planar.polygonInPolygon t g context = .ok r ∧ ∀ q, PolygonAnswer t g r' q ↔ q = r := by
  have only : ∀ {X : Prop} {a b r : Relation}, (r = a ↔ X) → (r = a ∨ r = b) → a ≠ b →
      ∀ q, (X → q = a) ∧ (¬ X → q = b) ↔ q = r := by
    intro X a b r h1 h2 h3 q
    by_cases hX : X
    · simp [hX, h1.mpr hX]
    · simp [hX, h2.resolve_left fun h => hX (h1.mp h)]
  obtain ⟨r, hr, hw⟩ := C72_polygon_in_polygon hc ht hg h'
  refine ⟨r, hr, ?_⟩
  have never := C72_never hc ht hg
  cases r'
  case component =>
    have := hr.symm.trans (never.1 h')
    cases this
    exact fun q => Iff.rfl
  case composite =>
    have := hr.symm.trans (never.2 h')
    cases this
    exact fun q => Iff.rfl
  case touch =>
    have k : r = .touch ∨ r = .overlap := by
      rcases hw with h | ⟨-, h, -⟩ | ⟨-, h, -⟩ | ⟨h, -⟩ | ⟨-, h, -⟩ | ⟨-, h, -⟩ <;> simp_all
    exact only (overlap_iff hc ht hg hr k) k.symm (by simp)
  case enclosed =>
    have k : r = .enclosed ∨ r = .within := by
      rcases hw with h | ⟨h, -⟩ | ⟨-, h, -⟩ | ⟨-, h, -⟩ | ⟨h, -⟩ | ⟨-, h, -⟩ <;> simp_all
    exact only (within_iff hc ht hg h' hr k) k.symm (by simp)
  case encloses =>
    have k : r = .encloses ∨ r = .cover := by
      rcases hw with h | ⟨-, h, -⟩ | ⟨h, -⟩ | ⟨-, h, -⟩ | ⟨-, h, -⟩ | ⟨h, -⟩ <;> simp_all
    exact only (cover_iff hc ht hg h' hr k) k.symm (by simp)
  all_goals
    rcases hw with rfl | ⟨-, h, -⟩ | ⟨-, h, -⟩ | ⟨-, h, -⟩ | ⟨-, h, -⟩ | ⟨-, h, -⟩
    · exact fun q => Iff.rfl
    all_goals cases h

/-- C76: the answer of `polygon_in_polygon` is right exactly if none of five conditions is met. -/
theorem C76_right_iff {context : Context K} (hc : context.Exact) {t g : Polygon K} (ht : t.Valid)
    (hg : g.Valid) {r' : Relation} (h' : PolygonRel t g r') :
    planar.polygonInPolygon t g context = .ok r' ↔
      r' ≠ .component ∧ r' ≠ .composite ∧ (r' = .touch → ¬ t.Entangled g) ∧
        (r' = .enclosed → ¬ t.LooksWithin g) ∧ (r' = .encloses → ¬ g.LooksWithin t) := by
  obtain ⟨r, hr, h⟩ := C76_polygon_in_polygon hc ht hg h'
  have e : planar.polygonInPolygon t g context = .ok r' ↔ PolygonAnswer t g r' r' := by
    rw [h, hr]
    constructor
    · intro k
      cases k
      rfl
    · rintro rfl
      rfl
  rw [e]
  cases r' <;> simp [PolygonAnswer]

/-- C76: the answer of `multiregion_in_polygon` for a valid multiregion which is not empty and a valid polygon. -/
theorem C76_multiregion_in_polygon {context : Context K} (hc : context.Exact) {m : Multiregion K} {g : Polygon K}
    (hm : Multiregion.Valid m) (hne : m ≠ []) (hg : g.Valid) {r' : Relation} (h' : MultiregionRel m g r') :
    ∃ r, planar.multiregionInPolygon m g context = .ok r ∧
      (g.holes = [] → r = r') ∧ (g.holes ≠ [] → ∀ q, MultiregionAnswer m g r' q ↔ q = r) := by
  by_cases hh : g.holes = []
  · obtain ⟨r, hr, h⟩ := C26_multiregion_in_polygon hc hm hg (.inl hh)
    exact ⟨r, hr, fun _ => (C72_multiregion_relation hm hne hg).unique h h', fun k => absurd hh k⟩
  obtain ⟨r, hr, hw⟩ := C72_multiregion_in_polygon hc hm hne hg h'
  refine ⟨r, hr, fun k => absurd k hh, fun _ => ?_⟩
  obtain ⟨n1, n2, n3⟩ := C72_never_multiregion hc hm hne hg hh
  cases r'
  case component =>
    have := hr.symm.trans (n1 h')
    cases this
    exact fun q => Iff.rfl
  case equal =>
    have := hr.symm.trans (n2 h')
    cases this
    exact fun q => Iff.rfl
  case composite =>
    have := hr.symm.trans (n3 h')
    cases this
    exact fun q => Iff.rfl
  case encloses =>
    have k : r = .encloses ∨ r = .overlap := by
      rcases hw with h | ⟨-, ⟨h, -⟩ | ⟨-, h | h⟩⟩ <;> simp_all
    have key := encloses_iff hc hm hg hh hr k
    intro q
    simp only [MultiregionAnswer]
    by_cases hX : ∃ c ∈ m, g.border.interior ⊆ Contour.interior c
    · simp [hX, key.mpr hX]
    · simp [hX, k.resolve_left fun h => hX (key.mp h)]
  all_goals
    rcases hw with rfl | ⟨-, ⟨-, h | h⟩ | ⟨-, h | h⟩⟩
    · exact fun q => Iff.rfl
    all_goals cases h

/-! ### Concrete cases -/

/-- The polygons of the counterexamples are entangled, and the one looks as if it were within the other one. -/
theorem C76_example : pinched.Entangled pinching ∧
    (let t : Polygon ℚ := ⟨⟨[⟨2, 2⟩, ⟨8, 2⟩, ⟨8, 8⟩, ⟨2, 8⟩]⟩, [⟨[⟨3, 3⟩, ⟨6, 3⟩, ⟨6, 6⟩, ⟨3, 6⟩]⟩]⟩
    let g : Polygon ℚ := ⟨⟨[⟨0, 0⟩, ⟨10, 0⟩, ⟨10, 10⟩, ⟨0, 10⟩]⟩,
      [⟨[⟨4, 4⟩, ⟨5, 4⟩, ⟨5, 5⟩, ⟨4, 5⟩]⟩, ⟨[⟨8, 4⟩, ⟨9, 4⟩, ⟨9, 5⟩, ⟨8, 5⟩]⟩]⟩
    t.LooksWithin g) := by
  refine ⟨?_, ?_⟩
  · obtain ⟨v1, v2, h, -⟩ := C72_counterexample_touch
    exact (overlap_iff reference.context_exact v1 v2 h (by simp)).mp rfl
  · obtain ⟨v1, v2, -, -, h, h'⟩ := C25_counterexample
    exact (within_iff reference.context_exact v1 v2 h' h (by simp)).mp rfl

/-- No region of a multiregion contains the border of a polygon, while all of them together contain its interior. -/
theorem C76_multiregion_example :
    let n : Multiregion ℚ := [⟨[⟨1, 0⟩, ⟨5, 0⟩, ⟨5, 3⟩, ⟨3, 2⟩, ⟨1, 3⟩]⟩, ⟨[⟨1, 3⟩, ⟨3, 4⟩, ⟨5, 3⟩, ⟨5, 5⟩, ⟨1, 5⟩]⟩]
    MultiregionRel n pinched .encloses ∧ ¬ ∃ c ∈ n, pinched.border.interior ⊆ Contour.interior c := by
  obtain ⟨-, hn, h, hr⟩ := C72_counterexample_overlap
  refine ⟨h, fun k => ?_⟩
  have := (encloses_iff reference.context_exact hn pinched_valid.1 (by decide) hr (.inr rfl)).mpr k
  cases this

/-- Two squares side by side are not entangled, so `TOUCH` is answered about them. -/
theorem C76_touch_example :
    let t : Polygon ℚ := ⟨⟨[⟨0, 0⟩, ⟨1, 0⟩, ⟨1, 1⟩, ⟨0, 1⟩]⟩, []⟩
    let g : Polygon ℚ := ⟨⟨[⟨1, 0⟩, ⟨2, 0⟩, ⟨2, 1⟩, ⟨1, 1⟩]⟩, []⟩
    PolygonRel t g .touch ∧ ¬ t.Entangled g := by
  intro t g
  have ht : t.Valid := Polygon.valid_of_check (by decide +kernel)
  have hg : g.Valid := Polygon.valid_of_check (by decide +kernel)
  have hr : planar.polygonInPolygon t g (reference.context : Context ℚ) = .ok .touch := by decide +kernel
  refine ⟨?_, fun k => ?_⟩
  · obtain ⟨r, hr', h | ⟨rfl, -⟩ | ⟨rfl, -⟩ | ⟨rfl, -⟩ | ⟨rfl, -⟩ | ⟨rfl, -⟩⟩ :=
      polygon_in_polygon_all reference.context_exact ht hg
    · rw [hr] at hr'
      cases hr'
      exact h
    all_goals
      rw [hr] at hr'
      cases hr'
  · have := (overlap_iff reference.context_exact ht hg hr (.inl rfl)).mpr k
    cases this

end Props
end Orient
