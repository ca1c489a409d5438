import Verif.Props.Stable
import Verif.Props.Moved
import Verif.Lemmas.Areal

/-! C71: which answers change by arbitrarily small translations. -/

set_option linter.unusedSectionVars false

namespace Orient.Props

variable {K : Type} [Field K] [LinearOrder K]

/-- The image of an areal geometry. -/
def Area.image (f : Affine K) : Area K → Area K
  | .region c => .region (f.contour c)
  | .multiregion m => .multiregion (f.multiregion m)
  | .polygon g => .polygon (f.polygon g)
  | .multipolygon m => .multipolygon (f.multipolygon m)

/-- The image of a linear geometry. -/
def Line.image (f : Affine K) : Line K → Line K
  | .segment s => .segment (f.segment s)
  | .multisegment m => .multisegment (f.multisegment m)
  | .contour c => .contour (f.contour c)

/-- The translation which moves one point to the other. -/
def shift (p q : Point K) : Affine K := ⟨1, 0, 0, 1, q.x - p.x, q.y - p.y⟩

variable [IsStrictOrderedRing K]

theorem shift_det (p q : Point K) : (shift p q).det ≠ 0 := by simp [shift, Affine.det]

theorem shift_apply (p q : Point K) : (shift p q).apply p = q := by
  apply Point.ext <;> simp [shift, Affine.apply]

theorem shift_near {δ : K} {p q : Point K} (h : p.Near δ q) (z : Point K) : z.Near δ ((shift p q).apply z) := by
  simpa [shift, Affine.apply, Point.Near] using h

theorem shift_contour_near {δ : K} {p q : Point K} (h : p.Near δ q) (c : Contour K) :
    c.Near δ ((shift p q).contour c) := by
  unfold Contour.Near Affine.contour
  rw [List.forall₂_map_right_iff]
  exact List.forall₂_same.mpr fun z _ => shift_near h z

theorem image_match {f : Affine K} {R : Contour K → Contour K → Prop} (h : ∀ c, R c (f.contour c)) (a : Area K) :
    a.Match R (a.image f) := by
  have list : ∀ l : List (Contour K), List.Forall₂ R l (f.multiregion l) := by
    intro l
    unfold Affine.multiregion
    rw [List.forall₂_map_right_iff]
    exact List.forall₂_same.mpr fun c _ => h c
  rcases a with a | a | a | a
  · exact h a
  · exact list a
  · exact ⟨h _, list _⟩
  · change List.Forall₂ _ a.polygons (a.polygons.map f.polygon)
    rw [List.forall₂_map_right_iff]
    exact List.forall₂_same.mpr fun g _ => ⟨h _, list _⟩

theorem image_near {δ : K} {p q : Point K} (h : p.Near δ q) (a : Area K) : a.Near δ (a.image (shift p q)) :=
  image_match (shift_contour_near h) a

theorem line_image_near {δ : K} {p q : Point K} (h : p.Near δ q) (a : Line K) : a.Near δ (a.image (shift p q)) := by
  rcases a with a | a | a
  · exact ⟨shift_near h _, shift_near h _⟩
  · change List.Forall₂ _ a.segments (a.segments.map (shift p q).segment)
    rw [List.forall₂_map_right_iff]
    exact List.forall₂_same.mpr fun s _ => ⟨shift_near h _, shift_near h _⟩
  · exact shift_contour_near h a

section

variable {f : Affine K} (hf : f.det ≠ 0)

include hf

theorem image_valid {a : Area K} (va : a.Valid) : (a.image f).Valid := by
  rcases a with a | a | a | a
  · exact affine_simple hf va
  · exact ⟨affine_multiregion_valid hf va.1, fun h => va.2 (List.map_eq_nil_iff.mp h)⟩
  · exact affine_polygon_valid hf va
  · exact ⟨affine_multipolygon_valid hf va.1, fun h => va.2 (List.map_eq_nil_iff.mp h)⟩

theorem image_fits {a b : Area K} (h : a.Fits b) : (a.image f).Fits b := by
  have nm : ∀ m : Multiregion K, Neat (m.flatMap Contour.edgeList) →
      Neat ((f.multiregion m).flatMap Contour.edgeList) := by
    intro m h
    rw [affine_multiregion_edges]
    exact (affine_neat hf _).mpr h
  have np : ∀ g : Polygon K, Neat g.edges → Neat (f.polygon g).edges := by
    intro m h
    rw [affine_polygon_edges]
    exact (affine_neat hf _).mpr h
  have nn : ∀ m : Multipolygon K, Neat (m.polygons.flatMap Polygon.edges) →
      Neat ((f.multipolygon m).polygons.flatMap Polygon.edges) := by
    intro m h
    rw [affine_multipolygon_edges]
    exact (affine_neat hf _).mpr h
  rcases a with a | a | a | a <;> rcases b with b | b | b | b
  all_goals first
    | exact h
    | exact affine_connected hf h
    | exact ⟨affine_connected hf h.1, h.2⟩
    | exact h.imp_left (nm _)
    | exact h.imp_left (np _)
    | exact h.imp_left (nn _)
    | exact h.imp_right (nm _)
    | exact h.imp_right (np _)
    | exact h.imp_right (nn _)

theorem line_image_valid {a : Line K} (va : a.Valid) : (a.image f).Valid := by
  rcases a with a | a | a
  · exact (affine_nondegenerate hf a).mpr va
  · exact ⟨affine_segmentsValid hf va.1, fun h => va.2 (List.map_eq_nil_iff.mp h)⟩
  · exact affine_simple hf va

end

section

variable {context : Context K} (hc : context.Exact)

include hc

theorem image_locate {f : Affine K} (hf : f.det ≠ 0) (a : Area K) (p : Point K) :
    (a.image f).locate context (f.apply p) = a.locate context p :=
  (area_congr (image_match (fun c => (C12_affine hc hf p c).symm) a)).symm

theorem line_image_locate {f : Affine K} {a : Line K} {p : Point K} (h : a.locate context p = .boundary) :
    (a.image f).locate context (f.apply p) = .boundary := by
  rw [line_located hc] at h ⊢
  rcases a with a | a | a
  · change _ ∈ (f.segment a).pts
    rw [affine_segment_pts]
    exact Set.mem_image_of_mem _ h
  · change _ ∈ segsPts (a.segments.map f.segment)
    rw [affine_segsPts]
    exact Set.mem_image_of_mem _ h
  · change _ ∈ (f.contour a).pts
    rw [affine_contour_pts]
    exact Set.mem_image_of_mem _ h

theorem area_areal {a : Area K} (va : a.Valid) :
    Areal a.edges {p | a.locate context p = .interior} {p | a.locate context p = .exterior} := by
  rcases a with a | a | a | a
  · have := region_located hc va
    simp only [Area.locate, this.interior, this.exterior]
    exact va.areal
  · have := multiregion_located hc va.1
    simp only [Area.locate, this.interior, this.exterior]
    exact va.1.areal
  · have := polygon_located hc va
    simp only [Area.locate, this.interior, this.exterior]
    exact va.areal
  · have := multipolygon_located hc va.1
    obtain ⟨l, -, o⟩ := polygons_oriented reference.context_exact va.1 false
    simp only [Area.locate, this.interior, this.exterior]
    exact ⟨_, o.outline⟩

/-- Both sides are arbitrarily near to every point of the boundary. -/
theorem area_sides {a : Area K} (va : a.Valid) {z : Point K} (hz : a.locate context z = .boundary) {δ : K} (hδ : 0 < δ) :
    (∃ q, z.Near δ q ∧ a.locate context q = .interior) ∧ ∃ q, z.Near δ q ∧ a.locate context q = .exterior := by
  obtain ⟨c, hs⟩ : ∃ c : Contour K, c.Simple := by
    rcases a with a | a | a | a
    · exact ⟨a, va⟩
    · obtain ⟨c, h⟩ := List.exists_mem_of_ne_nil _ va.2
      exact ⟨c, va.1.simple c h⟩
    · exact ⟨_, va.border⟩
    · obtain ⟨g, h⟩ := List.exists_mem_of_ne_nil _ va.2
      exact ⟨_, (va.1.valid g h).border⟩
  obtain ⟨i, hi⟩ := hs.interior_nonempty
  have box := (hc.contourBox c hs.ne_nil).interior
  have hi' := box
  obtain ⟨M, M0, hM⟩ : ∃ M : K, 0 < M ∧ ∀ p ∈ c.interior, |p.x - i.x| < M ∧ |p.y - i.y| < M := by
    set B := context.contourBox c
    refine ⟨(B.maxX - B.minX) + (B.maxY - B.minY) + 1, ?_, fun p hp => ?_⟩
    · have := box.minX_le i (.inl hi); have := box.le_maxX i (.inl hi)
      have := box.minY_le i (.inl hi); have := box.le_maxY i (.inl hi)
      linarith
    · have := box.minX_le i (.inl hi); have := box.le_maxX i (.inl hi)
      have := box.minY_le i (.inl hi); have := box.le_maxY i (.inl hi)
      have := box.minX_le p (.inl hp); have := box.le_maxX p (.inl hp)
      have := box.minY_le p (.inl hp); have := box.le_maxY p (.inl hp)
      constructor <;> rw [abs_lt] <;> constructor <;> linarith
  have e0 : 0 < δ / M := div_pos hδ M0
  let f : Affine K := ⟨δ / M, 0, 0, δ / M, z.x - δ / M * i.x, z.y - δ / M * i.y⟩
  have hf : f.det ≠ 0 := by
    simp only [f, Affine.det, mul_zero, sub_zero]
    exact (mul_pos e0 e0).ne'
  have fi : f.apply i = z := by
    apply Point.ext <;> simp [f, Affine.apply]
  have near : ∀ q ∈ (f.contour c).interior, z.Near δ q := by
    intro q hq
    rw [affine_interior hf] at hq
    obtain ⟨p, hp, rfl⟩ := hq
    obtain ⟨h1, h2⟩ := hM p hp
    have k : ∀ u v w : K, |u - v| < M → |δ / M * u + (w - δ / M * v) - w| < δ := by
      intro u v w h
      rw [show δ / M * u + (w - δ / M * v) - w = δ / M * (u - v) by ring, abs_mul, abs_of_pos e0]
      calc δ / M * |u - v| < δ / M * M := mul_lt_mul_of_pos_left h e0
        _ = δ := div_mul_cancel₀ _ M0.ne'
    refine ⟨?_, ?_⟩
    · simpa [f, Affine.apply] using k _ _ z.x h1
    · simpa [f, Affine.apply] using k _ _ z.y h2
  have hzi : z ∈ (f.contour c).interior := by
    rw [affine_interior hf]
    exact ⟨i, hi, fi⟩
  obtain ⟨⟨p, hp, hp'⟩, q, hq, hq'⟩ := ((area_areal hc va).near (affine_simple hf hs).areal
    ((area_boundary hc va z).mp hz)).1 hzi
  exact ⟨⟨p, near p hp', hp⟩, q, near q hq', hq⟩

/-- C71: all other relations of areal geometries change by arbitrarily small translations of one of the geometries. -/
theorem C71_areas_change {a b : Area K} (va : a.Valid) (vb : b.Valid) (hab : a.Suits b) {r : Relation}
    (hr : r ≠ .disjoint ∧ r ≠ .within ∧ r ≠ .cover ∧ r ≠ .overlap) (h : a.relate context b = .ok r) {δ : K}
    (hδ : 0 < δ) :
    ∃ p q : Point K, a.Near δ (a.image (shift p q)) ∧ (a.image (shift p q)).Valid ∧ (a.image (shift p q)).Fits b ∧
      (a.image (shift p q)).relate context b ≠ .ok r := by
  rw [C54_areas hc va vb hab] at h
  obtain ⟨h1, h2, h3, h4⟩ := hr
  have move : ∀ {p q : Point K}, p.Near δ q → ¬ ArealLocations ((a.image (shift p q)).locate context) (b.locate context) r →
      ∃ p q : Point K, a.Near δ (a.image (shift p q)) ∧ (a.image (shift p q)).Valid ∧ (a.image (shift p q)).Fits b ∧
      (a.image (shift p q)).relate context b ≠ .ok r := by
    intro p q hpq hn
    have v := image_valid (shift_det p q) va
    have fit := image_fits (shift_det p q) hab.fits
    exact ⟨p, q, image_near hpq a, v, fit, fun h => hn (fits_locations hc v vb fit h h2 h3)⟩
  have common : ∃ z, a.locate context z = .boundary ∧ b.locate context z = .boundary := by
    obtain ⟨z, hz⟩ := area_inhabited hc va .boundary (by simp)
    obtain ⟨w, hw⟩ := area_inhabited hc vb .boundary (by simp)
    cases r <;> simp only [ArealLocations] at h <;> try contradiction
    · exact h.1
    · exact h.2.2.2
    · exact ⟨w, by rw [h.1 w (by rw [hw]; simp), hw], hw⟩
    · exact ⟨z, hz, by rw [← h z, hz]⟩
    · exact ⟨z, hz, by rw [h.1 z (by rw [hz]; simp), hz]⟩
    · exact h.2.2.2
  obtain ⟨z, hz, hz'⟩ := common
  obtain ⟨⟨p, np, hp⟩, q, nq, hq⟩ := area_sides hc vb hz' hδ
  obtain ⟨-, u, nu, hu⟩ := area_sides hc va hz hδ
  have lp : (a.image (shift z p)).locate context p = .boundary := by
    have := image_locate hc (shift_det z p) a z
    rwa [shift_apply, hz] at this
  have lq : (a.image (shift z q)).locate context q = .boundary := by
    have := image_locate hc (shift_det z q) a z
    rwa [shift_apply, hz] at this
  have lu : (a.image (shift u z)).locate context z = .exterior := by
    have := image_locate hc (shift_det u z) a u
    rwa [shift_apply, hu] at this
  have nu : u.Near δ z := ⟨by rw [abs_sub_comm]; exact nu.1, by rw [abs_sub_comm]; exact nu.2⟩
  cases r <;> simp only [ArealLocations] at h <;> try contradiction
  · refine move np fun k => ?_
    have := k.2 p
    simp [lp, hp] at this
  · exact move nu fun k => k.2.1 z hz' lu
  · refine move nu fun k => ?_
    have := k.1 z (by rw [hz']; simp)
    simp [lu, hz'] at this
  · refine move nq fun k => ?_
    have := k q
    simp [lq, hq] at this
  · refine move nq fun k => ?_
    have := k.1 q (by rw [lq]; simp)
    simp [lq, hq] at this
  · exact move nq fun k => k.2.1 q lq hq

/-- C71: the relation of areal geometries does not change by small moves of the vertices iff it is `DISJOINT`, `WITHIN`,
`COVER` or `OVERLAP`. -/
theorem C71_areas_iff {a b : Area K} (va : a.Valid) (vb : b.Valid) (hab : a.Suits b) {r : Relation}
    (h : a.relate context b = .ok r) :
    (∃ δ, 0 < δ ∧ ∀ a' b' : Area K, a.Near δ a' → b.Near δ b' → a'.Valid → b'.Valid → a'.Fits b' →
      a'.relate context b' = .ok r) ↔ r = .disjoint ∨ r = .within ∨ r = .cover ∨ r = .overlap := by
  refine ⟨fun ⟨δ, h0, k⟩ => ?_, fun hr => C71_areas hc va vb hab hr h⟩
  by_contra hn
  obtain ⟨p, q, n, v, fit, hne⟩ := C71_areas_change hc va vb hab (by tauto) h h0
  have nb : b.Near δ b := Area.Match.refl fun c _ => List.forall₂_same.mpr fun z _ => z.near_self h0
  exact hne (k _ b n nb v vb fit)

/-- C71: the relations `TOUCH`, `COMPONENT` and `ENCLOSED` of a linear geometry to an areal one change by arbitrarily
small translations. -/
theorem C71_line_change {a : Line K} {b : Area K} (va : a.Valid) (vb : b.Valid) (hab : a.Suits b) {r : Relation}
    (hr : r ≠ .disjoint ∧ r ≠ .within ∧ r ≠ .cross) (h : a.relate context b = .ok r) {δ : K} (hδ : 0 < δ) :
    ∃ p q : Point K, a.Near δ (a.image (shift p q)) ∧ (a.image (shift p q)).Valid ∧
      ((a.image (shift p q)).Suits b → (a.image (shift p q)).relate context b ≠ .ok r) := by
  rw [C54_lines hc va vb hab] at h
  obtain ⟨h1, h2, h3⟩ := hr
  have common : ∃ z, a.locate context z = .boundary ∧ b.locate context z = .boundary := by
    obtain ⟨z, hz⟩ := line_inhabited hc va .boundary (by simp)
    cases r <;> simp only [LinearLocations] at h <;> try contradiction
    · exact h.2.2
    · exact ⟨z, hz, h z hz⟩
    · exact h.2.2
  obtain ⟨z, hz, hz'⟩ := common
  obtain ⟨⟨p, np, hp⟩, q, nq, hq⟩ := area_sides hc vb hz' hδ
  have lp : (a.image (shift z p)).locate context p = .boundary := by
    have := line_image_locate hc (f := shift z p) hz
    rwa [shift_apply] at this
  have lq : (a.image (shift z q)).locate context q = .boundary := by
    have := line_image_locate hc (f := shift z q) hz
    rwa [shift_apply] at this
  have move : ∀ {q : Point K}, z.Near δ q → ¬ LinearLocations ((a.image (shift z q)).locate context) (b.locate context) r →
      ∃ p q : Point K, a.Near δ (a.image (shift p q)) ∧ (a.image (shift p q)).Valid ∧
      ((a.image (shift p q)).Suits b → (a.image (shift p q)).relate context b ≠ .ok r) := by
    intro q hpq hn
    have v := line_image_valid (shift_det z q) va
    exact ⟨z, q, line_image_near hpq a, v, fun s h => hn ((C54_lines hc v vb s r).mp h)⟩
  cases r <;> simp only [LinearLocations] at h <;> try contradiction
  · exact move np fun k => k.1 p lp hp
  · refine move nq fun k => ?_
    have := k q lq
    rw [hq] at this
    cases this
  · exact move nq fun k => k.1 q lq hq

end

end Orient.Props
