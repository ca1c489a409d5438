import Verif.Props.PointInCompound
import Verif.Spec.Multi
import Verif.Spec.Ways
import Verif.Spec.Affine
import Mathlib.Data.Set.Function

/-! Images of geometries under affine bijections, and what such a map does with the relations of the
specification. -/

set_option linter.unusedSectionVars false

namespace Orient.Props

variable {K : Type} [Field K] [LinearOrder K] [IsStrictOrderedRing K]

section

variable {f : Affine K} (hf : f.det ≠ 0)

include hf in
theorem affine_inj : Function.Injective f.apply := fun _ _ h => affine_injective hf h

include hf in
theorem affine_surj : Function.Surjective f.apply := by
  intro q
  refine ⟨⟨(f.yy * (q.x - f.tx) - f.xy * (q.y - f.ty)) / f.det,
    (f.xx * (q.y - f.ty) - f.yx * (q.x - f.tx)) / f.det⟩, ?_⟩
  have h1 := div_mul_cancel₀ (f.yy * (q.x - f.tx) - f.xy * (q.y - f.ty)) hf
  have h2 := div_mul_cancel₀ (f.xx * (q.y - f.ty) - f.yx * (q.x - f.tx)) hf
  generalize (f.yy * (q.x - f.tx) - f.xy * (q.y - f.ty)) / f.det = u at *
  generalize (f.xx * (q.y - f.ty) - f.yx * (q.x - f.tx)) / f.det = v at *
  apply Point.ext <;> apply mul_left_cancel₀ hf <;> simp only [Affine.apply] <;>
    simp only [Affine.det] at h1 h2 ⊢
  · linear_combination f.xx * h1 + f.xy * h2
  · linear_combination f.yx * h1 + f.yy * h2

theorem affine_segment_pts (f : Affine K) (s : Segment K) : (f.segment s).pts = f.apply '' s.pts := by
  ext q
  constructor
  · rintro ⟨t, t0, t1, rfl⟩
    exact ⟨_, ⟨t, t0, t1, rfl⟩, affine_lerp f _ _ t⟩
  · rintro ⟨p, ⟨t, t0, t1, rfl⟩, rfl⟩
    exact ⟨t, t0, t1, affine_lerp f _ _ t⟩

theorem affine_segsPts (f : Affine K) (l : List (Segment K)) :
    segsPts (l.map f.segment) = f.apply '' segsPts l := by
  ext q
  constructor
  · rintro ⟨e, he, hq⟩
    obtain ⟨e', he', rfl⟩ := List.mem_map.mp he
    rw [affine_segment_pts] at hq
    obtain ⟨p, hp, rfl⟩ := hq
    exact ⟨p, ⟨e', he', hp⟩, rfl⟩
  · rintro ⟨p, ⟨e, he, hp⟩, rfl⟩
    refine ⟨f.segment e, List.mem_map.mpr ⟨e, he, rfl⟩, ?_⟩
    rw [affine_segment_pts]
    exact ⟨p, hp, rfl⟩

theorem affine_edges (f : Affine K) (c : Contour K) : (f.contour c).edgeList = c.edgeList.map f.segment :=
  affine_edgeList f c

theorem affine_contour_pts (f : Affine K) (c : Contour K) : (f.contour c).pts = f.apply '' c.pts := by
  unfold Contour.pts
  rw [affine_edges, affine_segsPts]

include hf in
theorem affine_locates {context : Context K} (hc : context.Exact) (c : Contour K) (p : Point K) (l : Location) :
    Locates (f.contour c) (f.apply p) l ↔ Locates c p l := by
  rw [← C10_point_in_region_unique hc, ← C10_point_in_region_unique hc, C12_affine hc hf]

include hf in
theorem affine_interior (c : Contour K) : (f.contour c).interior = f.apply '' c.interior := by
  ext q
  obtain ⟨p, rfl⟩ := affine_surj hf q
  rw [(affine_inj hf).mem_set_image]
  exact affine_locates hf reference.context_exact c p .interior

include hf in
theorem affine_exterior (c : Contour K) : (f.contour c).exterior = f.apply '' c.exterior := by
  ext q
  obtain ⟨p, rfl⟩ := affine_surj hf q
  rw [(affine_inj hf).mem_set_image]
  exact affine_locates hf reference.context_exact c p .exterior

include hf in
theorem affine_multiregion_interior (m : Multiregion K) :
    Multiregion.interior (f.multiregion m) = f.apply '' Multiregion.interior m := by
  ext q
  obtain ⟨p, rfl⟩ := affine_surj hf q
  rw [(affine_inj hf).mem_set_image]
  simp only [Multiregion.interior, Affine.multiregion, List.mem_map, Set.mem_ofPred_eq, exists_exists_and_eq_and,
    affine_interior hf, (affine_inj hf).mem_set_image]

theorem affine_multiregion_pts (f : Affine K) (m : Multiregion K) :
    Multiregion.pts (f.multiregion m) = f.apply '' Multiregion.pts m := by
  ext q
  simp only [Multiregion.pts, Affine.multiregion, List.mem_map, Set.mem_ofPred_eq, exists_exists_and_eq_and,
    affine_contour_pts, Set.mem_image]
  grind

include hf in
theorem affine_multiregion_exterior (m : Multiregion K) :
    Multiregion.exterior (f.multiregion m) = f.apply '' Multiregion.exterior m := by
  ext q
  obtain ⟨p, rfl⟩ := affine_surj hf q
  rw [(affine_inj hf).mem_set_image]
  simp only [Multiregion.exterior, Affine.multiregion, List.mem_map, Set.mem_ofPred_eq, forall_exists_index,
    and_imp, forall_apply_eq_imp_iff₂, affine_exterior hf, (affine_inj hf).mem_set_image]

include hf in
theorem affine_polygon_interior (g : Polygon K) : (f.polygon g).interior = f.apply '' g.interior := by
  ext q
  obtain ⟨p, rfl⟩ := affine_surj hf q
  rw [(affine_inj hf).mem_set_image]
  simp only [Polygon.interior, Affine.polygon, Set.mem_ofPred_eq, affine_interior hf,
    affine_multiregion_exterior hf, (affine_inj hf).mem_set_image]

theorem affine_polygon_pts (f : Affine K) (g : Polygon K) : (f.polygon g).pts = f.apply '' g.pts := by
  simp only [Polygon.pts, Affine.polygon, affine_contour_pts, affine_multiregion_pts, Set.image_union]

include hf in
theorem affine_polygon_exterior (g : Polygon K) : (f.polygon g).exterior = f.apply '' g.exterior := by
  simp only [Polygon.exterior, Affine.polygon, affine_exterior hf, affine_multiregion_interior hf, Set.image_union]

include hf in
theorem affine_multipolygon_interior (m : Multipolygon K) :
    (f.multipolygon m).interior = f.apply '' m.interior := by
  ext q
  obtain ⟨p, rfl⟩ := affine_surj hf q
  rw [(affine_inj hf).mem_set_image]
  simp only [Multipolygon.interior, Affine.multipolygon, List.mem_map, Set.mem_ofPred_eq, exists_exists_and_eq_and,
    affine_polygon_interior hf, (affine_inj hf).mem_set_image]

theorem affine_multipolygon_pts (f : Affine K) (m : Multipolygon K) :
    (f.multipolygon m).pts = f.apply '' m.pts := by
  ext q
  simp only [Multipolygon.pts, Affine.multipolygon, List.mem_map, Set.mem_ofPred_eq, exists_exists_and_eq_and,
    affine_polygon_pts, Set.mem_image]
  grind

include hf in
theorem affine_multipolygon_exterior (m : Multipolygon K) :
    (f.multipolygon m).exterior = f.apply '' m.exterior := by
  ext q
  obtain ⟨p, rfl⟩ := affine_surj hf q
  rw [(affine_inj hf).mem_set_image]
  simp only [Multipolygon.exterior, Affine.multipolygon, List.mem_map, Set.mem_ofPred_eq, forall_exists_index,
    and_imp, forall_apply_eq_imp_iff₂, affine_polygon_exterior hf, (affine_inj hf).mem_set_image]

theorem affine_polygon_edges (f : Affine K) (g : Polygon K) : (f.polygon g).edges = g.edges.map f.segment := by
  simp only [Polygon.edges, Affine.polygon, Affine.multiregion, affine_edges, List.map_append, List.flatMap_map,
    List.map_flatMap]

theorem affine_multiregion_edges (f : Affine K) (m : Multiregion K) :
    (f.multiregion m).flatMap Contour.edgeList = (m.flatMap Contour.edgeList).map f.segment := by
  simp only [Affine.multiregion, affine_edges, List.flatMap_map, List.map_flatMap]

theorem affine_multipolygon_edges (f : Affine K) (m : Multipolygon K) :
    (f.multipolygon m).polygons.flatMap Polygon.edges = (m.polygons.flatMap Polygon.edges).map f.segment := by
  simp only [Affine.multipolygon, affine_polygon_edges, List.flatMap_map, List.map_flatMap]

/-! ### Conditions -/

theorem affine_cross (f : Affine K) (a b c : Point K) :
    cross (f.apply a) (f.apply b) (f.apply c) = f.det * cross a b c := by
  simp only [cross, Affine.apply, Affine.det]; ring

include hf in
theorem affine_isEndpoint (s : Segment K) (p : Point K) :
    (f.segment s).IsEndpoint (f.apply p) ↔ s.IsEndpoint p := by
  simp only [Segment.IsEndpoint, Affine.segment, (affine_inj hf).eq_iff]

include hf in
theorem affine_nondegenerate (s : Segment K) : (f.segment s).Nondegenerate ↔ s.Nondegenerate := by
  simp only [Segment.Nondegenerate, Affine.segment, ne_eq, (affine_inj hf).eq_iff]

include hf in
theorem affine_meet (u v : Segment K) :
    (∀ p ∈ (f.segment u).pts ∩ (f.segment v).pts, (f.segment u).IsEndpoint p ∧ (f.segment v).IsEndpoint p) ↔
      ∀ p ∈ u.pts ∩ v.pts, u.IsEndpoint p ∧ v.IsEndpoint p := by
  rw [affine_segment_pts, affine_segment_pts, ← Set.image_inter (affine_inj hf)]
  simp only [Set.forall_mem_image, affine_isEndpoint hf]

include hf in
theorem affine_neat (l : List (Segment K)) : Neat (l.map f.segment) ↔ Neat l := by
  unfold Neat
  rw [List.pairwise_map]
  simp only [affine_meet hf]

include hf in
theorem affine_segmentsValid {l : List (Segment K)} (h : SegmentsValid l) : SegmentsValid (l.map f.segment) := by
  refine ⟨?_, ?_⟩
  · intro s hs
    obtain ⟨u, hu, rfl⟩ := List.mem_map.mp hs
    exact (affine_nondegenerate hf u).mpr (h.1 u hu)
  · rw [List.pairwise_map]
    refine h.2.imp fun {u v} huv => ?_
    rw [affine_segment_pts, affine_segment_pts, ← Set.image_inter (affine_inj hf)]
    exact huv.image _

include hf in
theorem affine_simple {c : Contour K} (h : c.Simple) : (f.contour c).Simple := by
  refine ⟨?_, ?_, ?_⟩
  · simpa [Affine.contour] using h.three
  · exact h.nodup.map (affine_inj hf)
  · rw [affine_edges, List.pairwise_map]
    exact h.meet.imp fun {u v} huv => (affine_meet hf u v).mpr huv

include hf in
theorem affine_sharesPiece (S T : Set (Point K)) :
    SharesPiece (f.apply '' S) (f.apply '' T) ↔ SharesPiece S T := by
  have i := affine_inj hf
  constructor
  · rintro ⟨⟨a, b⟩, hn, h1, h2⟩
    obtain ⟨a, rfl⟩ := affine_surj hf a
    obtain ⟨b, rfl⟩ := affine_surj hf b
    rw [show (⟨f.apply a, f.apply b⟩ : Segment K) = f.segment ⟨a, b⟩ from rfl] at hn h1 h2
    rw [affine_segment_pts, Set.image_subset_image_iff i] at h1 h2
    exact ⟨⟨a, b⟩, (affine_nondegenerate hf _).mp hn, h1, h2⟩
  · rintro ⟨u, hn, h1, h2⟩
    refine ⟨f.segment u, (affine_nondegenerate hf _).mpr hn, ?_, ?_⟩ <;> rw [affine_segment_pts]
    · exact Set.image_mono h1
    · exact Set.image_mono h2

include hf in
theorem affine_multiregion_valid {m : Multiregion K} (h : Multiregion.Valid m) :
    Multiregion.Valid (f.multiregion m) := by
  refine ⟨?_, ?_⟩
  · intro c hc
    obtain ⟨d, hd, rfl⟩ := List.mem_map.mp hc
    exact affine_simple hf (h.simple d hd)
  · unfold Affine.multiregion
    rw [List.pairwise_map]
    refine h.apart.imp fun {u v} huv => ?_
    rw [affine_interior hf, affine_interior hf, ← Set.image_inter (affine_inj hf), huv.1, Set.image_empty,
      affine_contour_pts, affine_contour_pts, affine_sharesPiece hf]
    exact ⟨rfl, huv.2⟩

include hf in
theorem affine_polygon_valid {g : Polygon K} (h : g.Valid) : (f.polygon g).Valid := by
  refine ⟨affine_simple hf h.border, affine_multiregion_valid hf h.holes, ?_, ?_⟩
  · intro c hc
    obtain ⟨d, hd, rfl⟩ := List.mem_map.mp hc
    simp only [Affine.polygon, affine_interior hf]
    exact Set.image_mono (h.inside d hd)
  · intro c hc
    obtain ⟨d, hd, rfl⟩ := List.mem_map.mp hc
    simp only [Affine.polygon, affine_contour_pts, affine_sharesPiece hf]
    exact h.apart d hd

include hf in
theorem affine_multipolygon_valid {m : Multipolygon K} (h : m.Valid) : (f.multipolygon m).Valid := by
  refine ⟨?_, ?_⟩
  · intro c hc
    obtain ⟨d, hd, rfl⟩ := List.mem_map.mp hc
    exact affine_polygon_valid hf (h.valid d hd)
  · unfold Affine.multipolygon
    rw [List.pairwise_map]
    refine h.apart.imp fun {u v} huv => ?_
    rw [affine_polygon_interior hf, affine_polygon_interior hf, ← Set.image_inter (affine_inj hf), huv.1,
      Set.image_empty, affine_polygon_pts, affine_polygon_pts, affine_sharesPiece hf]
    exact ⟨rfl, huv.2⟩

include hf in
theorem affine_joined {S : Set (Point K)} {p q : Point K} (h : Joined S p q) :
    Joined (f.apply '' S) (f.apply p) (f.apply q) := by
  induction h with
  | refl => exact .refl
  | @step q r _ hz ih =>
    refine .step ih ?_
    rw [show (⟨f.apply q, f.apply r⟩ : Segment K) = f.segment ⟨q, r⟩ from rfl, affine_segment_pts]
    rintro _ ⟨z, hz1, rfl⟩
    rw [(affine_inj hf).mem_set_image]
    exact hz z hz1

include hf in
theorem affine_connected {g : Polygon K} (h : g.Connected) : (f.polygon g).Connected := by
  intro p hp q hq
  rw [affine_polygon_interior hf] at hp hq
  obtain ⟨p, hp, rfl⟩ := hp
  obtain ⟨q, hq, rfl⟩ := hq
  rw [affine_polygon_pts]
  exact affine_joined hf (h p hp q hq)

/-! ### Relations -/

theorem linearCompoundRel_image {φ : Point K → Point K} (i : Function.Injective φ)
    (S I B E : Set (Point K)) (r : Relation) :
    LinearCompoundRel (φ '' S) (φ '' I) (φ '' B) (φ '' E) r ↔ LinearCompoundRel S I B E r := by
  cases r <;> simp only [LinearCompoundRel, Set.image_subset_image_iff i, ← Set.image_inter i, Set.image_nonempty,
    Set.image_eq_empty]

theorem compoundRel_image {φ : Point K → Point K} (i : Function.Injective φ)
    (I B E I' B' E' : Set (Point K)) (r : Relation) :
    CompoundRel (φ '' I) (φ '' B) (φ '' E) (φ '' I') (φ '' B') (φ '' E') r ↔ CompoundRel I B E I' B' E' r := by
  cases r <;> simp only [CompoundRel, ← Set.image_union, Set.image_subset_image_iff i, ← Set.image_inter i,
    Set.image_nonempty, Set.image_eq_empty, i.image_injective.eq_iff]

include hf in
theorem affine_setsRel (S T : Set (Point K)) (r : Relation) :
    SetsRel (f.apply '' S) (f.apply '' T) r ↔ SetsRel S T r := by
  have i := affine_inj hf
  cases r <;> simp only [SetsRel, ssubset_iff_subset_not_subset, Set.image_subset_image_iff i, ← Set.image_inter i,
    Set.image_nonempty, Set.image_eq_empty, i.image_injective.eq_iff, affine_sharesPiece hf]

include hf in
theorem affine_piece (a b : Point K) (S : Set (Point K)) :
    (⟨f.apply a, f.apply b⟩ : Segment K).pts ⊆ f.apply '' S ↔ (⟨a, b⟩ : Segment K).pts ⊆ S := by
  rw [show (⟨f.apply a, f.apply b⟩ : Segment K) = f.segment ⟨a, b⟩ from rfl, affine_segment_pts,
    Set.image_subset_image_iff (affine_inj hf)]

include hf in
/-- An affine bijection keeps the signs of all cross products or changes all of them. -/
theorem affine_signs :
    (∀ a b c : Point K, (0 < cross (f.apply a) (f.apply b) (f.apply c) ↔ 0 < cross a b c) ∧
      (cross (f.apply a) (f.apply b) (f.apply c) < 0 ↔ cross a b c < 0)) ∨
    ∀ a b c : Point K, (0 < cross (f.apply a) (f.apply b) (f.apply c) ↔ cross a b c < 0) ∧
      (cross (f.apply a) (f.apply b) (f.apply c) < 0 ↔ 0 < cross a b c) := by
  simp only [affine_cross]
  rcases lt_or_gt_of_ne hf with h | h
  · right
    intro a b c
    exact ⟨by rw [mul_pos_iff]; grind, by rw [mul_neg_iff]; grind⟩
  · left
    intro a b c
    exact ⟨by rw [mul_pos_iff]; grind, by rw [mul_neg_iff]; grind⟩

include hf in
theorem affine_crossedBy (s : Segment K) (M : Set (Point K)) :
    (f.segment s).CrossedBy (f.apply '' M) ↔ s.CrossedBy M := by
  have i := affine_inj hf
  constructor
  · rintro ⟨p, a, b, h1, h2, h3, h4, h5, h6⟩
    obtain ⟨p, rfl⟩ := affine_surj hf p
    obtain ⟨a, rfl⟩ := affine_surj hf a
    obtain ⟨b, rfl⟩ := affine_surj hf b
    rw [affine_segment_pts, i.mem_set_image] at h1
    rw [affine_isEndpoint hf] at h2
    rw [affine_piece hf] at h3 h4
    rcases affine_signs hf with h | h
    · exact ⟨p, a, b, h1, h2, h3, h4, ((h _ _ _).1).mp h5, ((h _ _ _).2).mp h6⟩
    · exact ⟨p, b, a, h1, h2, h4, h3, ((h _ _ _).2).mp h6, ((h _ _ _).1).mp h5⟩
  · rintro ⟨p, a, b, h1, h2, h3, h4, h5, h6⟩
    rw [← i.mem_set_image, ← affine_segment_pts] at h1
    rw [← affine_isEndpoint hf] at h2
    rw [← affine_piece hf] at h3 h4
    rcases affine_signs hf with h | h
    · exact ⟨_, _, _, h1, h2, h3, h4, ((h _ _ _).1).mpr h5, ((h _ _ _).2).mpr h6⟩
    · exact ⟨_, _, _, h1, h2, h4, h3, ((h _ _ _).1).mpr h6, ((h _ _ _).2).mpr h5⟩

include hf in
theorem affine_linearRel (s : Segment K) (M : Set (Point K)) (r : Relation) :
    LinearRel (f.segment s) (f.apply '' M) r ↔ LinearRel s M r := by
  have i := affine_inj hf
  cases r <;> simp only [LinearRel, ssubset_iff_subset_not_subset, affine_segment_pts,
    Set.image_subset_image_iff i, ← Set.image_inter i, Set.image_nonempty, Set.image_eq_empty,
    i.image_injective.eq_iff, affine_sharesPiece hf, affine_crossedBy hf]

include hf in
theorem affine_contourRel (s : Segment K) (c : Contour K) (r : Relation) :
    ContourRel (f.segment s) (f.contour c) r ↔ ContourRel s c r := by
  have i := affine_inj hf
  cases r <;> simp only [ContourRel, affine_edges, List.mem_map, exists_exists_and_eq_and, affine_segment_pts,
    affine_contour_pts, Set.image_subset_image_iff i, ← Set.image_inter i, Set.image_nonempty, Set.image_eq_empty,
    affine_sharesPiece hf, affine_crossedBy hf]

include hf in
theorem affine_segmentsRel (s t : Segment K) (r : Relation) :
    SegmentsRel (f.segment s) (f.segment t) r ↔ SegmentsRel s t r := by
  have i := affine_inj hf
  have e : ∀ p : Point K, f.apply '' (s.pts ∩ t.pts) = {f.apply p} ↔ s.pts ∩ t.pts = {p} := by
    intro p
    rw [← Set.image_singleton, i.image_injective.eq_iff]
  have x : ∀ P : Point K → Prop, (∃ q, P q) ↔ ∃ p, P (f.apply p) := fun P => (affine_surj hf).exists
  cases r <;> simp only [SegmentsRel]
  case cross => rw [x]; simp only [affine_segment_pts, ← Set.image_inter i, affine_isEndpoint hf, e]
  case touch => rw [x]; simp only [affine_segment_pts, ← Set.image_inter i, affine_isEndpoint hf, e]
  all_goals simp only [ssubset_iff_subset_not_subset, affine_segment_pts, Set.image_subset_image_iff i,
    ← Set.image_inter i, Set.image_eq_empty, i.image_injective.eq_iff, Set.image_nontrivial i]

include hf in
theorem affine_inAngle :
    (∀ p a b x : Point K, InAngle (f.apply p) (f.apply a) (f.apply b) (f.apply x) ↔ InAngle p a b x) ∨
    ∀ p a b x : Point K, InAngle (f.apply p) (f.apply b) (f.apply a) (f.apply x) ↔ InAngle p a b x := by
  rcases affine_signs hf with h | h
  · left
    intro p a b x
    simp only [InAngle, (h _ _ _).1, (h _ _ _).2]
  · right
    intro p a b x
    have e : ∀ u v : Point K, cross p u v = - cross p v u := by intro u v; simp only [cross]; ring
    simp only [InAngle, (h _ _ _).1, (h _ _ _).2, e b a, e b x, e x a, neg_neg_iff_pos, neg_pos]
    rw [e a b]
    simp only [neg_pos, neg_neg_iff_pos]
    grind

include hf in
theorem affine_crossesAt (S T : Set (Point K)) (p : Point K) :
    CrossesAt (f.apply '' S) (f.apply '' T) (f.apply p) ↔ CrossesAt S T p := by
  constructor
  · rintro ⟨a, b, u, v, h1, h2, h3, h4, h5, h6⟩
    obtain ⟨a, rfl⟩ := affine_surj hf a
    obtain ⟨b, rfl⟩ := affine_surj hf b
    obtain ⟨u, rfl⟩ := affine_surj hf u
    obtain ⟨v, rfl⟩ := affine_surj hf v
    rw [affine_piece hf] at h1 h2 h3 h4
    rcases affine_inAngle hf with h | h
    · exact ⟨a, b, u, v, h1, h2, h3, h4, (h _ _ _ _).mp h5, (h _ _ _ _).mp h6⟩
    · exact ⟨b, a, u, v, h2, h1, h3, h4, (h _ _ _ _).mp h5, (h _ _ _ _).mp h6⟩
  · rintro ⟨a, b, u, v, h1, h2, h3, h4, h5, h6⟩
    rw [← affine_piece hf] at h1 h2 h3 h4
    rcases affine_inAngle hf with h | h
    · exact ⟨_, _, _, _, h1, h2, h3, h4, (h _ _ _ _).mpr h5, (h _ _ _ _).mpr h6⟩
    · exact ⟨_, _, _, _, h2, h1, h3, h4, (h _ _ _ _).mpr h5, (h _ _ _ _).mpr h6⟩

include hf in
theorem affine_atMostTwoWays {T : Set (Point K)} {p : Point K} (h : AtMostTwoWays T p) :
    AtMostTwoWays (f.apply '' T) (f.apply p) := by
  intro a b c ha hb hc h1 h2 h3
  obtain ⟨a, rfl⟩ := affine_surj hf a
  obtain ⟨b, rfl⟩ := affine_surj hf b
  obtain ⟨c, rfl⟩ := affine_surj hf c
  rw [affine_piece hf] at h1 h2 h3
  have e : ∀ a b : Point K, (⟨f.apply a, f.apply b⟩ : Segment K).pts = f.apply '' (⟨a, b⟩ : Segment K).pts :=
    fun a b => affine_segment_pts f ⟨a, b⟩
  simp only [e, affine_sharesPiece hf]
  exact h a b c (fun h => ha (h ▸ rfl)) (fun h => hb (h ▸ rfl)) (fun h => hc (h ▸ rfl)) h1 h2 h3

end

end Orient.Props
