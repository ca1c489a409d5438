import Verif.Props.Sides
import Verif.Props.Ranges

/-! C96: areal geometries whose boundaries do not meet. -/

set_option linter.unusedSectionVars false

namespace Orient.Props

variable {K : Type} [Field K] [LinearOrder K]

/-- Points of the contours of an areal geometry, at least one of each contour. -/
def Area.Sampled (a : Area K) (l : List (Point K)) : Prop :=
  (∀ p ∈ l, ∃ c ∈ a.contours, p ∈ c.pts) ∧ ∀ c ∈ a.contours, ∃ p ∈ l, p ∈ c.pts

variable [IsStrictOrderedRing K]

open Segment

/-- The first point of a segment on another one. -/
theorem first_on_segment (p q : Point K) (g : Segment K) {t : K} (t0 : 0 ≤ t) (ht : lerp p q t ∈ g.pts) :
    ∃ s, 0 ≤ s ∧ lerp p q s ∈ g.pts ∧ ∀ w, 0 ≤ w → lerp p q w ∈ g.pts → s ≤ w := by
  obtain ⟨u, u0, u1, hu⟩ := ht
  by_cases hd : p = q
  · refine ⟨0, le_rfl, ⟨u, u0, u1, ?_⟩, fun w w0 _ => w0⟩
    subst hd
    rw [← hu]
    simp [lerp]
  simp only [lerp, Point.mk.injEq] at hu
  obtain ⟨hx, hy⟩ := hu
  by_cases hk : (q.x - p.x) * (g.finish.y - g.start.y) - (q.y - p.y) * (g.finish.x - g.start.x) = 0
  · -- the second segment is along the first one
    obtain ⟨lam, l1, l2⟩ : ∃ lam, g.finish.x - g.start.x = lam * (q.x - p.x) ∧
        g.finish.y - g.start.y = lam * (q.y - p.y) := by
      by_cases h0 : q.x - p.x = 0
      · have h1 : q.y - p.y ≠ 0 := fun h1 => hd (by
          cases p; cases q
          simp only [Point.mk.injEq] at *
          exact ⟨by linarith, by linarith⟩)
        refine ⟨(g.finish.y - g.start.y) / (q.y - p.y), ?_, by field_simp⟩
        rw [h0] at hk ⊢
        have : (q.y - p.y) * (g.finish.x - g.start.x) = 0 := by linarith
        rw [mul_zero]
        exact (mul_eq_zero.mp this).resolve_left h1
      · refine ⟨(g.finish.x - g.start.x) / (q.x - p.x), by field_simp, ?_⟩
        field_simp
        linarith
    -- parameters of the endpoints
    have key : ∀ w, lerp p q w ∈ g.pts ↔ ∃ v, 0 ≤ v ∧ v ≤ 1 ∧ w = t - u * lam + v * lam := by
      intro w
      constructor
      · rintro ⟨v, v0, v1, hv⟩
        refine ⟨v, v0, v1, ?_⟩
        refine lerp_injective hd ?_
        rw [hv]
        simp only [lerp, Point.mk.injEq]
        constructor
        · linear_combination -hx - (u - v) * l1
        · linear_combination -hy - (u - v) * l2
      · rintro ⟨v, v0, v1, rfl⟩
        refine ⟨v, v0, v1, ?_⟩
        simp only [lerp, Point.mk.injEq]
        constructor
        · linear_combination hx + (u - v) * l1
        · linear_combination hy + (u - v) * l2
    have tk : t = t - u * lam + u * lam := by ring
    rcases lt_trichotomy lam 0 with hl | hl | hl
    · rcases le_total 0 (t - u * lam + lam) with h | h
      · refine ⟨_, h, (key _).mpr ⟨1, zero_le_one, le_rfl, by ring⟩, fun w _ hw => ?_⟩
        obtain ⟨v, v0, v1, rfl⟩ := (key w).mp hw
        nlinarith
      · refine ⟨0, le_rfl, (key _).mpr ⟨(t - u * lam) / -lam, div_nonneg (by nlinarith) (by linarith), ?_, ?_⟩,
          fun w hw _ => hw⟩
        · rw [div_le_one (by linarith)]
          linarith
        · have : lam ≠ 0 := hl.ne
          field_simp
          ring
    · refine ⟨t, t0, (key t).mpr ⟨u, u0, u1, tk⟩, fun w _ hw => ?_⟩
      obtain ⟨v, v0, v1, rfl⟩ := (key w).mp hw
      rw [hl]
      linarith
    · rcases le_total 0 (t - u * lam) with h | h
      · refine ⟨_, h, (key _).mpr ⟨0, le_rfl, zero_le_one, by ring⟩, fun w _ hw => ?_⟩
        obtain ⟨v, v0, v1, rfl⟩ := (key w).mp hw
        nlinarith
      · refine ⟨0, le_rfl, (key _).mpr ⟨-(t - u * lam) / lam, div_nonneg (by linarith) hl.le, ?_, ?_⟩,
          fun w hw _ => hw⟩
        · rw [div_le_one hl]
          nlinarith
        · field_simp
          ring
  · -- they meet at one point only
    refine ⟨t, t0, ⟨u, u0, u1, by simp only [lerp, Point.mk.injEq]; exact ⟨hx, hy⟩⟩, fun w _ hw => ?_⟩
    obtain ⟨v, v0, v1, hv⟩ := hw
    simp only [lerp, Point.mk.injEq] at hv
    have : (t - w) * ((q.x - p.x) * (g.finish.y - g.start.y) - (q.y - p.y) * (g.finish.x - g.start.x)) = 0 := by
      linear_combination (hx - hv.1) * (g.finish.y - g.start.y) - (hy - hv.2) * (g.finish.x - g.start.x)
    rcases mul_eq_zero.mp this with h | h
    · linarith
    · exact absurd h hk

/-- The first point of a segment on segments of a list. -/
theorem first_on_segments (p q : Point K) (l : List (Segment K)) {t : K} (t0 : 0 ≤ t) (ht : lerp p q t ∈ segsPts l) :
    ∃ s, 0 ≤ s ∧ lerp p q s ∈ segsPts l ∧ ∀ w, 0 ≤ w → lerp p q w ∈ segsPts l → s ≤ w := by
  induction l generalizing t with
  | nil =>
    obtain ⟨e, he, -⟩ := ht
    simp at he
  | cons g l ih =>
    by_cases h1 : ∃ t, 0 ≤ t ∧ lerp p q t ∈ g.pts
    · obtain ⟨t1, k0, k1⟩ := h1
      obtain ⟨s, s0, s1, s2⟩ := first_on_segment p q g k0 k1
      by_cases h2 : ∃ t, 0 ≤ t ∧ lerp p q t ∈ segsPts l
      · obtain ⟨t2, k0, k1⟩ := h2
        obtain ⟨r, r0, r1, r2⟩ := ih k0 k1
        rcases le_total s r with h | h
        · refine ⟨s, s0, ⟨g, List.mem_cons_self, s1⟩, ?_⟩
          rintro w w0 ⟨e, he, k⟩
          rcases List.mem_cons.mp he with rfl | he
          · exact s2 w w0 k
          · exact h.trans (r2 w w0 ⟨e, he, k⟩)
        · obtain ⟨e, he, k⟩ := r1
          refine ⟨r, r0, ⟨e, List.mem_cons_of_mem _ he, k⟩, ?_⟩
          rintro w w0 ⟨e, he, k⟩
          rcases List.mem_cons.mp he with rfl | he
          · exact h.trans (s2 w w0 k)
          · exact r2 w w0 ⟨e, he, k⟩
      · refine ⟨s, s0, ⟨g, List.mem_cons_self, s1⟩, ?_⟩
        rintro w w0 ⟨e, he, k⟩
        rcases List.mem_cons.mp he with rfl | he
        · exact s2 w w0 k
        · exact absurd ⟨w, w0, e, he, k⟩ h2
    · obtain ⟨e, he, k⟩ := ht
      rcases List.mem_cons.mp he with rfl | he
      · exact absurd ⟨t, t0, k⟩ h1
      · obtain ⟨s, s0, ⟨e, he, k⟩, s2⟩ := ih t0 ⟨e, he, k⟩
        refine ⟨s, s0, ⟨e, List.mem_cons_of_mem _ he, k⟩, ?_⟩
        rintro w w0 ⟨e, he, k⟩
        rcases List.mem_cons.mp he with rfl | he
        · exact absurd ⟨w, w0, k⟩ h1
        · exact s2 w w0 ⟨e, he, k⟩

section

variable {context : Context K} (hc : context.Exact)
include hc

/-- The contours of an areal geometry are in its boundary. -/
theorem area_boundary_contours {u : Area K} (vu : u.Valid) {c : Contour K} (hm : c ∈ u.contours) {p : Point K}
    (hp : p ∈ c.pts) : u.locate context p = .boundary := by
  have poly : ∀ {g : Polygon K}, c ∈ g.border :: g.holes → p ∈ g.pts := by
    intro g h
    rcases List.mem_cons.mp h with rfl | h
    · exact .inl hp
    · exact .inr ⟨c, h, hp⟩
  rcases u with u | u | u | u <;> simp only [Area.Valid] at vu <;> simp only [Area.contours] at hm
  · obtain rfl := List.mem_singleton.mp hm
    exact ((region_located hc vu).boundary p).mpr hp
  · exact ((multiregion_located hc vu.1).boundary p).mpr ⟨c, hm, hp⟩
  · exact ((polygon_located hc vu).boundary p).mpr (poly hm)
  · obtain ⟨g, hg, hm⟩ := List.mem_flatMap.mp hm
    exact ((multipolygon_located hc vu.1).boundary p).mpr ⟨g, hg, poly hm⟩

/-- If the boundary of the second geometry is outside of the first one, then the inside of the first one is on the side
of the second one on which the boundary of the first one is. -/
theorem area_fence {a u : Area K} (va : a.Valid) (vu : u.Valid) {α : Location} (hα : α ≠ .boundary)
    (h1 : ∀ z, a.locate context z = .boundary → u.locate context z = α)
    (h2 : ∀ z, u.locate context z = .boundary → a.locate context z = .exterior) {p : Point K}
    (hp : a.locate context p = .interior) : u.locate context p = α := by
  by_contra hn
  obtain ⟨G, I, E, g, a1, a2, a3⟩ := area_located hc va
  obtain ⟨T, I', E', t, b1, b2, b3⟩ := area_located hc vu
  have hS : ∀ z, a.locate context z = .boundary → z ∈ segsPts G := fun z => (a2 z).mp
  have hT : ∀ z, u.locate context z = .boundary → z ∈ segsPts T := fun z => (b2 z).mp
  -- go from the point to the boundary of the first geometry
  obtain ⟨b, hb⟩ := area_inhabited hc va .boundary (by simp)
  have on : ∀ {z}, z ∈ segsPts (G ++ T) ↔ z ∈ segsPts G ∨ z ∈ segsPts T := fun {z} => by
    rw [segsPts_append]
    exact Iff.rfl
  obtain ⟨s, s0, hs, first⟩ := first_on_segments p b (G ++ T) zero_le_one
    (by rw [lerp_one]; exact on.mpr (.inl (hS b hb)))
  have before : ∀ z ∈ (⟨p, lerp p b s⟩ : Segment K).pts, z ≠ lerp p b s → z ∉ segsPts (G ++ T) := by
    rintro z ⟨v, v0, v1, rfl⟩ hz k
    have e : lerp p (lerp p b s) v = lerp p b (v * s) := by
      simp only [lerp, Point.mk.injEq]
      exact ⟨by ring, by ring⟩
    simp only [e] at hz k
    have k1 := first _ (mul_nonneg v0 s0) k
    have k2 : v * s ≤ s := by nlinarith
    exact hz (by rw [le_antisymm k2 k1])
  rcases on.mp hs with k | k
  · have hz := h1 _ ((a2 _).mpr k)
    have nz : lerp p b s ∉ segsPts T := fun h => hα (by rw [← hz]; exact (b2 _).mpr h)
    have np : p ∉ segsPts T := fun h => by
      rw [h2 p ((b2 p).mpr h)] at hp
      cases hp
    refine hn ((area_path_eq hc vu hT (.single fun z hz' hm => ?_) np nz).trans hz)
    by_cases e : z = lerp p b s
    · exact nz (e ▸ hm)
    · exact before z hz' e (on.mpr (.inr hm))
  · have hz := h2 _ ((b2 _).mpr k)
    refine area_path hc va hS (.single fun z hz' hm => ?_) hp hz
    by_cases e : z = lerp p b s
    · rw [e, ← a2, hz] at hm
      cases hm
    · exact before z hz' e (on.mpr (.inl hm))

omit hc in
theorem ArealTrust.complement {l l' : Point K → Location} {r : Relation} (h : ArealTrust l l' r) :
    ArealTrust l' l r.complement where
  disjoint := by
    have : NoCommon l' l ↔ NoCommon l l' := forall_congr' fun p => or_comm
    rw [this, ← h.disjoint]
    cases r <;> simp [Relation.complement]
  within := fun k => by rw [h.cover k]; rfl
  cover := fun k => by rw [h.within k]; rfl
  part := fun k => h.whole (by cases r <;> simp_all [Relation.complement, Relation.IsPart, Relation.IsWhole])
  whole := fun k => h.part (by cases r <;> simp_all [Relation.complement, Relation.IsPart, Relation.IsWhole])
  intermix := fun ⟨p, k1, k2⟩ => by
    have := h.intermix ⟨p, k2, k1⟩
    revert this
    cases r <;> simp [Relation.complement]

/-- What the answers about areal geometries say for certain. -/
theorem area_trust {a u : Area K} (va : a.Valid) (vu : u.Valid) : ∃ r, a.relate context u = .ok r ∧
    ArealTrust (a.locate context) (u.locate context) r ∧ r ≠ .cross := by
  have nc : ∀ {r : Relation}, r ∈ compoundCompound → r ≠ .cross := by
    intro r h e
    subst e
    revert h
    decide
  have back : ∀ {x : Py Relation} {l l' : Point K → Location}, (∃ r, x = .ok r ∧ ArealTrust l l' r ∧ r ≠ .cross) →
      ∃ r, x.map Relation.complement = .ok r ∧ ArealTrust l' l r ∧ r ≠ .cross := by
    rintro x l l' ⟨r, rfl, h, k⟩
    refine ⟨r.complement, rfl, ArealTrust.complement h, ?_⟩
    revert k
    cases r <;> simp [Relation.complement]
  have d : Contour K := ⟨[]⟩
  have rr : ∀ {a : Region K} {b : Region K}, (Contour.Simple a) → (Contour.Simple b) → ∃ r, planar.regionInRegion a b context = .ok r ∧
      ArealTrust (planar.pointInRegion · a context) (planar.pointInRegion · b context) r ∧ r ≠ .cross := fun {a b} va vb => by
    obtain ⟨r, hr, h, -⟩ := C82_region_in_region hc va vb
    exact ⟨r, hr, h, nc ((C21_compound_compound context a b [] [] ⟨d, []⟩ ⟨d, []⟩ ⟨[]⟩ ⟨[]⟩).1 r hr)⟩
  have rn : ∀ {a : Region K} {b : Multiregion K}, (Contour.Simple a) → (Multiregion.Valid b ∧ b ≠ []) → ∃ r, planar.regionInMultiregion a b context = .ok r ∧
      ArealTrust (planar.pointInRegion · a context) (planar.pointInMultiregion · b context) r ∧ r ≠ .cross := fun {a b} va vb => by
    obtain ⟨r, hr, h, -⟩ := C82_region_in_multiregion hc va vb.1 vb.2
    exact ⟨r, hr, h, nc ((C21_compound_compound context a d b [] ⟨d, []⟩ ⟨d, []⟩ ⟨[]⟩ ⟨[]⟩).2.1 r hr)⟩
  have nn : ∀ {a : Multiregion K} {b : Multiregion K}, (Multiregion.Valid a ∧ a ≠ []) → (Multiregion.Valid b ∧ b ≠ []) → ∃ r, planar.multiregionInMultiregion a b context = .ok r ∧
      ArealTrust (planar.pointInMultiregion · a context) (planar.pointInMultiregion · b context) r ∧ r ≠ .cross := fun {a b} va vb => by
    obtain ⟨r, hr, h, -⟩ := C82_multiregion_in_multiregion hc va.1 vb.1 va.2 vb.2
    exact ⟨r, hr, h, nc ((C21_compound_compound context d d a b ⟨d, []⟩ ⟨d, []⟩ ⟨[]⟩ ⟨[]⟩).2.2.1 r hr)⟩
  have rg : ∀ {a : Region K} {b : Polygon K}, (Contour.Simple a) → (b.Valid) → ∃ r, planar.regionInPolygon a b context = .ok r ∧
      ArealTrust (planar.pointInRegion · a context) (planar.pointInPolygon · b context) r ∧ r ≠ .cross := fun {a b} va vb => by
    obtain ⟨r, hr, h, -⟩ := C82_region_in_polygon hc va vb
    exact ⟨r, hr, h, nc ((C21_compound_compound context a d [] [] b ⟨d, []⟩ ⟨[]⟩ ⟨[]⟩).2.2.2.1 r hr)⟩
  have ng : ∀ {a : Multiregion K} {b : Polygon K}, (Multiregion.Valid a ∧ a ≠ []) → (b.Valid) → ∃ r, planar.multiregionInPolygon a b context = .ok r ∧
      ArealTrust (planar.pointInMultiregion · a context) (planar.pointInPolygon · b context) r ∧ r ≠ .cross := fun {a b} va vb => by
    obtain ⟨r, hr, h, -⟩ := C82_multiregion_in_polygon hc va.1 vb va.2
    exact ⟨r, hr, h, nc ((C21_compound_compound context d d a [] b ⟨d, []⟩ ⟨[]⟩ ⟨[]⟩).2.2.2.2.1 r hr)⟩
  have gg : ∀ {a : Polygon K} {b : Polygon K}, (a.Valid) → (b.Valid) → ∃ r, planar.polygonInPolygon a b context = .ok r ∧
      ArealTrust (planar.pointInPolygon · a context) (planar.pointInPolygon · b context) r ∧ r ≠ .cross := fun {a b} va vb => by
    obtain ⟨r, hr, h, -⟩ := C82_polygon_in_polygon hc va vb
    exact ⟨r, hr, h, nc ((C21_compound_compound context d d [] [] a b ⟨[]⟩ ⟨[]⟩).2.2.2.2.2.1 r hr)⟩
  have rh : ∀ {a : Region K} {b : Multipolygon K}, (Contour.Simple a) → (b.Valid ∧ b.polygons ≠ []) → ∃ r, planar.regionInMultipolygon a b context = .ok r ∧
      ArealTrust (planar.pointInRegion · a context) (planar.pointInMultipolygon · b context) r ∧ r ≠ .cross := fun {a b} va vb => by
    obtain ⟨r, hr, h, -⟩ := C82_region_in_multipolygon hc va vb.1 vb.2
    exact ⟨r, hr, h, nc ((C21_compound_compound context a d [] [] ⟨d, []⟩ ⟨d, []⟩ b ⟨[]⟩).2.2.2.2.2.2.1 r hr)⟩
  have nh : ∀ {a : Multiregion K} {b : Multipolygon K}, (Multiregion.Valid a ∧ a ≠ []) → (b.Valid ∧ b.polygons ≠ []) → ∃ r, planar.multiregionInMultipolygon a b context = .ok r ∧
      ArealTrust (planar.pointInMultiregion · a context) (planar.pointInMultipolygon · b context) r ∧ r ≠ .cross := fun {a b} va vb => by
    obtain ⟨r, hr, h, -⟩ := C82_multiregion_in_multipolygon hc va.1 vb.1 va.2 vb.2
    exact ⟨r, hr, h, nc ((C21_compound_compound context d d a [] ⟨d, []⟩ ⟨d, []⟩ b ⟨[]⟩).2.2.2.2.2.2.2.1 r hr)⟩
  have gh : ∀ {a : Polygon K} {b : Multipolygon K}, (a.Valid) → (b.Valid ∧ b.polygons ≠ []) → ∃ r, planar.polygonInMultipolygon a b context = .ok r ∧
      ArealTrust (planar.pointInPolygon · a context) (planar.pointInMultipolygon · b context) r ∧ r ≠ .cross := fun {a b} va vb => by
    obtain ⟨r, hr, h, -⟩ := C82_polygon_in_multipolygon hc va vb.1 vb.2
    exact ⟨r, hr, h, nc ((C21_compound_compound context d d [] [] a ⟨d, []⟩ b ⟨[]⟩).2.2.2.2.2.2.2.2.1 r hr)⟩
  have hh : ∀ {a : Multipolygon K} {b : Multipolygon K}, (a.Valid ∧ a.polygons ≠ []) → (b.Valid ∧ b.polygons ≠ []) → ∃ r, planar.multipolygonInMultipolygon a b context = .ok r ∧
      ArealTrust (planar.pointInMultipolygon · a context) (planar.pointInMultipolygon · b context) r ∧ r ≠ .cross := fun {a b} va vb => by
    obtain ⟨r, hr, h, -⟩ := C82_multipolygon_in_multipolygon hc va.1 vb.1 va.2 vb.2
    exact ⟨r, hr, h, nc ((C21_compound_compound context d d [] [] ⟨d, []⟩ ⟨d, []⟩ a b).2.2.2.2.2.2.2.2.2 r hr)⟩
  rcases a with a | a | a | a <;> rcases u with u | u | u | u <;> simp only [Area.Valid] at va vu
  · exact rr va vu
  · exact rn va vu
  · exact rg va vu
  · exact rh va vu
  · exact back (rn vu va)
  · exact nn va vu
  · exact ng va vu
  · exact nh va vu
  · exact back (rg vu va)
  · exact back (ng vu va)
  · exact gg va vu
  · exact gh va vu
  · exact back (rh vu va)
  · exact back (nh vu va)
  · exact back (gh vu va)
  · exact hh va vu

/-- Points of an areal geometry stand for the contours on which they are. -/
theorem area_sampled {a u : Area K} (va : a.Valid) (vu : u.Valid)
    (h : ∀ p, a.locate context p = .boundary → u.locate context p ≠ .boundary) {l : List (Point K)} (hl : Area.Sampled a l)
    {p : Point K} (hp : a.locate context p = .boundary) : ∃ q ∈ l, u.locate context p = u.locate context q := by
  obtain ⟨c, hm, k⟩ := area_contours_boundary hc va hp
  obtain ⟨q, hq, k'⟩ := hl.2 c hm
  have off : ∀ z ∈ c.pts, z ∉ {z | u.locate context z = .boundary} := fun z hz => h z (area_boundary_contours hc va hm hz)
  exact ⟨q, hq, area_path_eq hc vu (S := {z | u.locate context z = .boundary}) (fun z hz => hz)
    (Contour.joined_of_disjoint (a := c) (Set.eq_empty_iff_forall_notMem.mpr fun z hz => off z hz.1 hz.2) k k')
    (off _ k) (off _ k')⟩

/-- C96: the relation of areal geometries whose boundaries do not meet is told by the locations of points of their
contours, one of each contour. -/
theorem C96_sides {a u : Area K} (va : a.Valid) (vu : u.Valid)
    (h : ∀ p, a.locate context p = .boundary → u.locate context p ≠ .boundary) {l m : List (Point K)}
    (hl : Area.Sampled a l) (hm : Area.Sampled u m) : a.relate context u
      = .ok (Relation.ofBothSides (l.map (u.locate context)) (m.map (a.locate context))) := by
  have h' : ∀ p, u.locate context p = .boundary → a.locate context p ≠ .boundary := fun p h1 h2 => h p h2 h1
  have on : ∀ {a : Area K}, a.Valid → ∀ {l}, Area.Sampled a l → ∀ q ∈ l, a.locate context q = .boundary := fun va l hl q hq => by
    obtain ⟨c, hm, k⟩ := hl.1 q hq
    exact area_boundary_contours hc va hm k
  have ne : ∀ {a : Area K}, a.Valid → ∀ {l}, Area.Sampled a l → ∃ q, q ∈ l := fun va l hl => by
    obtain ⟨p, hp⟩ := area_inhabited hc va .boundary (by simp)
    obtain ⟨c, hm, -⟩ := area_contours_boundary hc va hp
    obtain ⟨q, hq, -⟩ := hl.2 c hm
    exact ⟨q, hq⟩
  have x1 : ∀ {α}, (∀ q ∈ l, u.locate context q = α) → ∀ z, a.locate context z = .boundary → u.locate context z = α :=
    fun k z hz => by
      obtain ⟨q, hq, e⟩ := area_sampled hc va vu h hl hz
      rw [e, k q hq]
  have x2 : ∀ {α}, (∀ q ∈ m, a.locate context q = α) → ∀ z, u.locate context z = .boundary → a.locate context z = α :=
    fun k z hz => by
      obtain ⟨q, hq, e⟩ := area_sampled hc vu va h' hm hz
      rw [e, k q hq]
  obtain ⟨r, hr, tr, nc⟩ := area_trust hc va vu
  obtain ⟨G, I, E, g, a1, a2, a3⟩ := area_located hc va
  obtain ⟨T, I', E', t, b1, b2, b3⟩ := area_located hc vu
  have over : (∃ p, a.locate context p = .interior ∧ u.locate context p = .interior) →
      (∃ p, a.locate context p = .interior ∧ u.locate context p = .exterior) →
      (∃ p, a.locate context p = .exterior ∧ u.locate context p = .interior) → r = .overlap := by
    rintro ⟨p, p1, p2⟩ ⟨q, q1, q2⟩ ⟨z, z1, z2⟩
    have n1 : r ≠ .disjoint := fun e => by
      have := tr.disjoint.mp e p
      rw [p1, p2] at this
      simp at this
    have n2 := tr.intermix ⟨p, p1, p2⟩
    have n3 : ¬ r.IsPart := fun k => tr.part k q (by rw [q1]; simp) q2
    have n4 : ¬ r.IsWhole := fun k => tr.whole k z (by rw [z2]; simp) z1
    revert n1 n2 n3 n4 nc
    cases r <;> simp [Relation.IsPart, Relation.IsWhole]
  have near1 : ∀ {z}, a.locate context z = .boundary → u.locate context z = .interior →
      (∃ p, a.locate context p = .interior ∧ u.locate context p = .interior) ∧
        ∃ p, a.locate context p = .exterior ∧ u.locate context p = .interior := fun {z} h1 h2 => by
    obtain ⟨⟨p, p1, p2⟩, q, q1, q2⟩ := (g.near t ((a2 z).mp h1)).1 ((b1 z).mp h2)
    exact ⟨⟨p, (a1 p).mpr p1, (b1 p).mpr p2⟩, q, (a3 q).mpr q1, (b1 q).mpr q2⟩
  have near2 : ∀ {z}, a.locate context z = .boundary → u.locate context z = .exterior →
      ∃ p, a.locate context p = .interior ∧ u.locate context p = .exterior := fun {z} h1 h2 => by
    obtain ⟨p, p1, p2⟩ := (g.near t ((a2 z).mp h1)).2 ((b3 z).mp h2)
    exact ⟨p, (a1 p).mpr p1, (b3 p).mpr p2⟩
  have near3 : ∀ {z}, u.locate context z = .boundary → a.locate context z = .interior →
      (∃ p, a.locate context p = .interior ∧ u.locate context p = .interior) ∧
        ∃ p, a.locate context p = .interior ∧ u.locate context p = .exterior := fun {z} h1 h2 => by
    obtain ⟨⟨p, p1, p2⟩, q, q1, q2⟩ := (t.near g ((b2 z).mp h1)).1 ((a1 z).mp h2)
    exact ⟨⟨p, (a1 p).mpr p2, (b1 p).mpr p1⟩, q, (a1 q).mpr q2, (b3 q).mpr q1⟩
  have near4 : ∀ {z}, u.locate context z = .boundary → a.locate context z = .exterior →
      ∃ p, a.locate context p = .exterior ∧ u.locate context p = .interior := fun {z} h1 h2 => by
    obtain ⟨p, p1, p2⟩ := (t.near g ((b2 z).mp h1)).2 ((a3 z).mp h2)
    exact ⟨p, (a3 p).mpr p2, (b1 p).mpr p1⟩
  have side1 : ∀ q ∈ l, u.locate context q = .interior ∨ u.locate context q = .exterior := fun q hq => by
    have := h q (on va hl q hq)
    revert this
    cases u.locate context q <;> simp
  have side2 : ∀ q ∈ m, a.locate context q = .interior ∨ a.locate context q = .exterior := fun q hq => by
    have := h' q (on vu hm q hq)
    revert this
    cases a.locate context q <;> simp
  rw [hr]
  congr 1
  unfold Relation.ofBothSides
  simp only [List.mem_map, forall_exists_index, and_imp, forall_apply_eq_imp_iff₂]
  obtain ⟨ql, hql⟩ := ne va hl
  obtain ⟨qm, hqm⟩ := ne vu hm
  split_ifs with k1 k2 k3 k4
  · refine tr.disjoint.mpr fun p => ?_
    by_cases e : a.locate context p = .exterior
    · exact .inl e
    · refine .inr ?_
      cases e' : a.locate context p with
      | exterior => exact absurd e' e
      | boundary => exact x1 k2 p e'
      | interior => exact area_fence hc va vu (by simp) (x1 k2) (x2 k1) e'
  · refine tr.within fun p e => ?_
    cases e' : a.locate context p with
    | exterior => exact absurd e' e
    | boundary => exact x1 k3 p e'
    | interior => exact area_fence hc va vu (by simp) (x1 k3) (x2 k1) e'
  · push Not at k2 k3
    obtain ⟨p, hp, n1⟩ := k2
    obtain ⟨q, hq, n2⟩ := k3
    have i := near1 (on va hl p hp) ((side1 p hp).resolve_right n1)
    exact over i.1 (near2 (on va hl q hq) ((side1 q hq).resolve_left n2)) i.2
  · refine tr.cover fun p e => ?_
    cases e' : u.locate context p with
    | exterior => exact absurd e' e
    | boundary => exact x2 k4.2 p e'
    | interior => exact area_fence hc vu va (by simp) (x2 k4.2) (x1 k4.1) e'
  · push Not at k1
    obtain ⟨p, hp, n1⟩ := k1
    have i := near3 (on vu hm p hp) ((side2 p hp).resolve_right n1)
    refine over i.1 i.2 ?_
    by_cases k5 : ∃ q ∈ l, u.locate context q = .interior
    · obtain ⟨q, hq, e⟩ := k5
      exact (near1 (on va hl q hq) e).2
    · by_cases k6 : ∃ q ∈ m, a.locate context q = .exterior
      · obtain ⟨q, hq, e⟩ := k6
        exact near4 (on vu hm q hq) e
      · exact absurd ⟨fun q hq => (side1 q hq).resolve_left fun e => k5 ⟨q, hq, e⟩,
          fun q hq => (side2 q hq).resolve_right fun e => k6 ⟨q, hq, e⟩⟩ k4

/-- C96: the same if `contour_in_contour` says that the contours of the geometries are disjoint. -/
theorem C96_contours {a u : Area K} (va : a.Valid) (vu : u.Valid)
    (h : ∀ c ∈ a.contours, ∀ d ∈ u.contours, planar.contourInContour c d context = .ok .disjoint) {l m : List (Point K)}
    (hl : Area.Sampled a l) (hm : Area.Sampled u m) : a.relate context u
      = .ok (Relation.ofBothSides (l.map (u.locate context)) (m.map (a.locate context))) := by
  refine C96_sides hc va vu (fun p h1 h2 => ?_) hl hm
  obtain ⟨c, hc', k⟩ := area_contours_boundary hc va h1
  obtain ⟨d, hd, k'⟩ := area_contours_boundary hc vu h2
  have := lines_fact hc (a := .contour c) (b := .contour d) (area_contours_simple va c hc') (area_contours_simple vu d hd)
    (h c hc' d hd)
  exact Set.eq_empty_iff_forall_notMem.mp this p ⟨k, k'⟩

/-- C96: two polygons, by a point of each contour. -/
theorem C96_polygons {a b : Polygon K} (va : a.Valid) (vb : b.Valid)
    (h : ∀ c ∈ a.border :: a.holes, ∀ d ∈ b.border :: b.holes, planar.contourInContour c d context = .ok .disjoint)
    {f : Contour K → Point K} (hf : ∀ c, c.Simple → f c ∈ c.pts) : planar.polygonInPolygon a b context
      = .ok (Relation.ofBothSides ((a.border :: a.holes).map fun c => planar.pointInPolygon (f c) b context)
        ((b.border :: b.holes).map fun c => planar.pointInPolygon (f c) a context)) := by
  have sm : ∀ {g : Polygon K}, g.Valid → Area.Sampled (.polygon g) ((g.border :: g.holes).map f) := fun {g} vg =>
    ⟨fun p hp => by
      obtain ⟨c, hm, rfl⟩ := List.mem_map.mp hp
      exact ⟨c, hm, hf c (area_contours_simple (u := .polygon g) vg c hm)⟩,
    fun c hm => ⟨_, List.mem_map.mpr ⟨c, hm, rfl⟩, hf c (area_contours_simple (u := .polygon g) vg c hm)⟩⟩
  have := C96_contours hc (a := .polygon a) (u := .polygon b) va vb h (sm va) (sm vb)
  rw [List.map_map, List.map_map] at this
  exact this

end

/-- A square with two opposite corners. -/
def sidesSquare (a b : ℚ) : Contour ℚ := ⟨[⟨a, a⟩, ⟨b, a⟩, ⟨b, b⟩, ⟨a, b⟩]⟩

/-- Polygons whose boundaries do not meet the boundary of `carvedPolygon`: one in its hole, one in it, one
around it and one around the hole. -/
def sidesPolygons : List (Polygon ℚ) :=
  [⟨sidesSquare 4 5, []⟩, ⟨sidesSquare (3 / 2) 2, []⟩, ⟨sidesSquare 0 9, [sidesSquare 4 5]⟩, ⟨sidesSquare 2 7, []⟩]

theorem sidesPolygons_valid : ∀ g ∈ sidesPolygons, reference.isPolygon g = true := by decide +kernel

/-- The conditions can be met, and each answer occurs. -/
theorem C96_example : carvedPolygon.Valid ∧ (∀ g ∈ sidesPolygons, g.Valid) ∧
    (∀ g ∈ sidesPolygons, ∀ c ∈ carvedPolygon.border :: carvedPolygon.holes, ∀ d ∈ g.border :: g.holes,
      planar.contourInContour c d (reference.context : Context ℚ) = .ok .disjoint) ∧
    sidesPolygons.map (fun g => planar.polygonInPolygon carvedPolygon g (reference.context : Context ℚ))
      = [.ok .disjoint, .ok .cover, .ok .within, .ok .overlap] :=
  ⟨Polygon.valid_of_check (by decide +kernel), fun g hg => Polygon.valid_of_check (sidesPolygons_valid g hg),
    by decide +kernel, by decide +kernel⟩

/-- The first vertices can be chosen. -/
theorem C96_example_points (c : Contour K) (h : c.Simple) : c.vertices.headD ⟨0, 0⟩ ∈ c.pts := by
  have := h.ne_nil
  refine Contour.vertex_mem_pts ?_
  cases e : c.vertices with
  | nil => exact absurd e this
  | cons v l => exact List.mem_cons_self

/-- Points of the borders are not enough: the border of the first polygon is inside of the second one and the border of the
second one is outside of the first one, but a hole of the second one is inside of the first one. -/
theorem C96_counterexample :
    let g : Polygon ℚ := ⟨sidesSquare 2 7, []⟩
    let u : Polygon ℚ := ⟨sidesSquare 0 9, [sidesSquare 4 5]⟩
    planar.pointInPolygon ⟨0, 0⟩ g (reference.context : Context ℚ) = .exterior ∧
      planar.pointInPolygon ⟨2, 2⟩ u (reference.context : Context ℚ) = .interior ∧
      planar.pointInPolygon ⟨4, 4⟩ g (reference.context : Context ℚ) = .interior ∧
      planar.polygonInPolygon g u (reference.context : Context ℚ) = .ok .overlap := by
  refine ⟨by decide +kernel, by decide +kernel, by decide +kernel, by decide +kernel⟩

end Orient.Props
