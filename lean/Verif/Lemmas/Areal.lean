import Verif.Lemmas.Tables
import Verif.Lemmas.Sweep.Parts
import Verif.Lemmas.Contours

/-! Regions, multiregions and polygons as parts of the plane. -/

set_option linter.unusedSectionVars false

namespace Orient

variable {K : Type} [Field K] [LinearOrder K] [IsStrictOrderedRing K]

/-- The segments are the outline of a part of the plane. -/
def Areal (G : List (Segment K)) (I E : Set (Point K)) : Prop := ∃ M, Outline M G I E

section

variable {G T : List (Segment K)} {I E I' E' : Set (Point K)}

theorem Areal.near (g : Areal G I' E') (t : Areal T I E) {z : Point K} (hz : z ∈ segsPts G) :
    (z ∈ I → (I' ∩ I).Nonempty ∧ (E' ∩ I).Nonempty) ∧ (z ∈ E → (I' ∩ E).Nonempty) := by
  obtain ⟨M, g⟩ := g
  obtain ⟨N, t⟩ := t
  exact g.near t hz

theorem Areal.split (g : Areal G I E) : Split I (segsPts G) E := by
  obtain ⟨M, g⟩ := g
  refine ⟨fun x => ?_, fun x h => g.interior h, fun x h => g.not_both h, fun x h h' => g.exterior h' h⟩
  by_cases hx : x ∈ segsPts G
  · exact .inr (.inl hx)
  · rcases g.cover hx with h | h
    · exact .inl h
    · exact .inr (.inr h)

end

theorem Contour.Simple.areal {c : Contour K} (h : c.Simple) :
    Areal c.edgeList c.interior c.exterior := by
  obtain ⟨l, -, o⟩ := h.oriented' reference.context_exact false
  exact ⟨_, o.outline⟩

theorem Multiregion.Valid.areal {m : List (Contour K)} (h : Multiregion.Valid m) :
    Areal (edgesOf m) (Multiregion.interior m) (Multiregion.exterior m) := by
  obtain ⟨l, -, o⟩ := h.oriented reference.context_exact false
  exact ⟨_, o.outline⟩

theorem Polygon.Valid.areal {g : Polygon K} (h : g.Valid) : Areal g.edges g.interior g.exterior := by
  obtain ⟨l, -, o⟩ := h.oriented reference.context_exact false
  exact ⟨_, o.outline⟩

theorem Contour.Simple.split {c : Contour K} (h : c.Simple) : Split c.interior c.pts c.exterior :=
  h.areal.split

theorem Multiregion.Valid.split {m : List (Contour K)} (h : Multiregion.Valid m) :
    Split (Multiregion.interior m) (Multiregion.pts m) (Multiregion.exterior m) := by
  have := h.areal.split
  rwa [segsPts_edgesOf] at this

theorem Polygon.Valid.split {g : Polygon K} (h : g.Valid) : Split g.interior g.pts g.exterior := by
  have := h.areal.split
  rwa [Polygon.segsPts_edges] at this

theorem Polygon.Valid.holed {g : Polygon K} (h : g.Valid) :
    Holed g.border.interior g.border.pts g.border.exterior (Multiregion.interior g.holes)
      (Multiregion.pts g.holes) (Multiregion.exterior g.holes) := by
  refine ⟨h.border.split, h.holes.split, ?_, fun x hx => h.holes_inside hx⟩
  rintro x ⟨d, hd, hx⟩
  exact h.inside d hd hx

theorem Polygon.no_holes {g : Polygon K} (h : g.holes = []) : g.interior = g.border.interior ∧
    g.pts = g.border.pts ∧ g.exterior = g.border.exterior := by
  refine ⟨?_, ?_, ?_⟩ <;> ext x <;>
    simp [Polygon.interior, Polygon.pts, Polygon.exterior, Multiregion.interior, Multiregion.pts,
      Multiregion.exterior, h]

/-- Both sides of the boundary of a polygon are near to each point of it. -/
theorem Polygon.Valid.near {g : Polygon K} (h : g.Valid) {T : List (Segment K)} {I E : Set (Point K)}
    (t : Areal T I E) {z : Point K} (hz : z ∈ g.pts) :
    (z ∈ I → (g.interior ∩ I).Nonempty ∧ (g.exterior ∩ I).Nonempty) ∧
      (z ∈ E → (g.interior ∩ E).Nonempty) :=
  h.areal.near t (by rwa [Polygon.segsPts_edges])

theorem Multiregion.Valid.near {m : List (Contour K)} (h : Multiregion.Valid m) {T : List (Segment K)}
    {I E : Set (Point K)} (t : Areal T I E) {z : Point K} (hz : z ∈ Multiregion.pts m) :
    (z ∈ I → (Multiregion.interior m ∩ I).Nonempty ∧ (Multiregion.exterior m ∩ I).Nonempty) ∧
      (z ∈ E → (Multiregion.interior m ∩ E).Nonempty) :=
  h.areal.near t (by rwa [segsPts_edgesOf])

/-- A hole has points of its boundary inside of the border. -/
theorem Polygon.Valid.hole_meets {g : Polygon K} (h : g.Valid) {d : Contour K} (hd : d ∈ g.holes) :
    (Contour.pts d ∩ g.border.interior).Nonempty := by
  by_contra hn
  refine h.apart d hd ?_
  obtain ⟨e, he⟩ := List.exists_mem_of_ne_nil _ (Contour.edgeList_ne_nil (h.holes.simple d hd).ne_nil)
  refine ⟨e, (h.holes.simple d hd).nondegenerate he, fun z hz => ?_, fun z hz => ⟨e, he, hz⟩⟩
  have hz : z ∈ Contour.pts d := ⟨e, he, hz⟩
  refine (h.holes_inside ⟨d, hd, hz⟩).resolve_left fun h' => hn ⟨z, hz, h'⟩

/-! ### connected parts -/

theorem Contour.Simple.meets_inside {a b : Contour K} (ha : a.Simple)
    (h1 : (a.interior ∩ b.interior).Nonempty) (h2 : (a.interior ∩ b.exterior).Nonempty) :
    (b.pts ∩ a.interior).Nonempty := by
  by_contra hn
  obtain ⟨p, p1, p2⟩ := h1
  obtain ⟨q, q1, q2⟩ := h2
  exact Contour.not_both
    ((ha.same_inside (Set.not_nonempty_iff_eq_empty.mp hn) p1 q1).mp p2) q2

theorem Contour.Simple.meets_outside {a b : Contour K} (ha : a.Simple) (hb : b.Simple)
    (h : (a.exterior ∩ b.interior).Nonempty) : (b.pts ∩ a.exterior).Nonempty := by
  by_contra hn
  obtain ⟨p, p1, p2⟩ := h
  obtain ⟨q, q1, q2⟩ := ha.far hb
  exact Contour.not_both
    ((ha.same_outside (Set.not_nonempty_iff_eq_empty.mp hn) p1 q1).mp p2) q2

/-- A region which is strictly contained in another one does not cover its boundary. -/
theorem Contour.Simple.border_outside {a b : Contour K} (ha : a.Simple) (hb : b.Simple) {r : Relation}
    (hr : r = .within ∨ r = .enclosed)
    (h : CompoundRel a.interior a.pts a.exterior b.interior b.pts b.exterior r) :
    (b.pts ∩ a.exterior).Nonempty := by
  by_contra hn
  have sa := ha.split
  have sb := hb.split
  obtain ⟨x, hx⟩ := hb.exists_mem
  have cov : ∀ z ∈ b.pts, z ∈ a.interior ∨ z ∈ a.pts := fun z hz => by
    rcases sa.cover z with h | h | h
    · exact .inl h
    · exact .inr h
    · exact absurd ⟨z, hz, h⟩ hn
  rcases hr with rfl | rfl
  · have h : a.interior ∪ a.pts ⊆ b.interior := h
    exact sb.ib x (h (cov x hx)) hx
  · obtain ⟨h1, h2, ⟨y, y1, y2⟩, -⟩ := h
    have sub : b.pts ⊆ a.pts := fun z hz =>
      (cov z hz).resolve_left fun h' => sb.ib z (h1 h') hz
    rw [← ha.pts_eq_of_subset hb sub] at y1
    exact sb.ib y y2 y1

theorem Contour.Simple.not_component {a b : Contour K} (ha : a.Simple) (hb : b.Simple) :
    ¬ CompoundRel a.interior a.pts a.exterior b.interior b.pts b.exterior .component := by
  rintro ⟨-, h1, h2⟩
  obtain ⟨z, z1, z2⟩ := ha.meets_outside hb h2
  have := hb.pts_eq_of_subset ha h1
  exact ha.split.be z (this ▸ z1) z2

theorem Contour.Simple.not_composite {a b : Contour K} (ha : a.Simple) (hb : b.Simple) :
    ¬ CompoundRel a.interior a.pts a.exterior b.interior b.pts b.exterior .composite := by
  rintro ⟨h0, h1, h2⟩
  refine hb.not_component ha ⟨h0, h1, ?_⟩
  rwa [Set.inter_comm] at h2

/-- The inside of a polygon is not left without its boundary. -/
theorem Polygon.Valid.interior_of_joined {g : Polygon K} (h : g.Valid) {p q : Point K}
    (hp : p ∈ g.interior) (hj : Joined g.pts p q) (hq : q ∉ g.pts) : q ∈ g.interior := by
  refine ⟨(Contour.interior_iff_of_joined (hj.avoid fun r _ hr h' => hr (.inl h'))).mp hp.1, ?_⟩
  intro d hd
  refine (Contour.exterior_iff_of_joined (hj.avoid fun r _ hr h' => hr (.inr ⟨d, hd, h'⟩)) ?_ ?_).mp
    (hp.2 d hd)
  · exact fun h' => (h.holes.simple d hd).split.be p h' (hp.2 d hd)
  · exact fun h' => hq (.inr ⟨d, hd, h'⟩)

/-- The inside of a connected polygon which has points on both sides of a contour has points of it. -/
theorem Polygon.Valid.meets {g : Polygon K} (h : g.Valid) (hcn : g.Connected) {c : Contour K}
    (h1 : (g.interior ∩ c.interior).Nonempty) (h2 : (g.interior ∩ c.exterior).Nonempty) :
    (c.pts ∩ g.interior).Nonempty := by
  by_contra hn
  obtain ⟨p, p1, p2⟩ := h1
  obtain ⟨q, q1, q2⟩ := h2
  refine Contour.not_both ((Contour.interior_iff_of_joined ((hcn p p1 q q1).avoid ?_)).mp p2) q2
  intro r hr hr' hm
  exact hn ⟨r, hm, h.interior_of_joined p1 hr hr'⟩

end Orient
