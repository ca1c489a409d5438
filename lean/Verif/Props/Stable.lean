import Verif.Lemmas.Stable
import Verif.Props.Nodes
import Verif.Props.Convex
import Verif.Lemmas.Areal

/-! C71: which answers do not change if the vertices are moved a little. -/

set_option linter.unusedSectionVars false

namespace Orient.Props

variable {K : Type} [Field K] [LinearOrder K]

/-! ### geometries with moved vertices -/

/-- The border and the holes correspond to each other. -/
def PolygonsMatch (R : Contour K → Contour K → Prop) (g h : Polygon K) : Prop :=
  R g.border h.border ∧ List.Forall₂ R g.holes h.holes

/-- Areal geometries of the same type with the same arrangement of contours, and contours which correspond to each
other. -/
def Area.Match (R : Contour K → Contour K → Prop) : Area K → Area K → Prop
  | .region c, .region d => R c d
  | .multiregion m, .multiregion n => List.Forall₂ R m n
  | .polygon g, .polygon h => PolygonsMatch R g h
  | .multipolygon m, .multipolygon n => List.Forall₂ (PolygonsMatch R) m.polygons n.polygons
  | _, _ => False

/-- The same geometry with vertices moved by less than `δ`. -/
def Area.Near (δ : K) : Area K → Area K → Prop := Area.Match (Contour.Near δ)

/-- The same geometry with vertices moved by less than `δ`. -/
def Line.Near (δ : K) : Line K → Line K → Prop
  | .segment s, .segment t => s.Near δ t
  | .multisegment m, .multisegment n => List.Forall₂ (Segment.Near δ) m.segments n.segments
  | .contour c, .contour d => c.Near δ d
  | _, _ => False

/-- The contours of an areal geometry. -/
def Area.contours : Area K → List (Contour K)
  | .region c => [c]
  | .multiregion m => m
  | .polygon g => g.border :: g.holes
  | .multipolygon m => m.polygons.flatMap fun g => g.border :: g.holes

/-- The conditions of `Area.Suits`, without the one which is needed to tell `ENCLOSED` from `WITHIN`. -/
def Area.Fits : Area K → Area K → Prop
  | .polygon a, .polygon b => a.Connected ∧ b.Connected
  | a, b => a.Suits b

variable [IsStrictOrderedRing K]

theorem Area.Suits.fits {a b : Area K} (h : a.Suits b) : a.Fits b := by
  rcases a with a | a | a | a <;> rcases b with b | b | b | b
  all_goals first
    | exact ⟨h.1, h.2.1⟩
    | exact h

theorem PolygonsMatch.imp {R Q : Contour K → Contour K → Prop} {g h : Polygon K} (m : PolygonsMatch R g h)
    (k : ∀ c ∈ g.border :: g.holes, ∀ d, R c d → Q c d) : PolygonsMatch Q g h :=
  ⟨k _ (by simp) _ m.1, forall₂_imp_mem m.2 fun c hc d _ => k c (by simp [hc]) d⟩

theorem Area.Match.imp {R Q : Contour K → Contour K → Prop} {a b : Area K} (m : a.Match R b)
    (k : ∀ c ∈ a.contours, ∀ d, R c d → Q c d) : a.Match Q b := by
  rcases a with a | a | a | a <;> rcases b with b | b | b | b <;> try exact m.elim
  · exact k a (by simp [Area.contours]) b m
  · exact forall₂_imp_mem m fun c hc d _ => k c hc d
  · exact PolygonsMatch.imp m k
  · exact forall₂_imp_mem m fun g hg h _ m => m.imp fun c hc => k c (List.mem_flatMap.mpr ⟨g, hg, hc⟩)

theorem PolygonsMatch.refl {R : Contour K → Contour K → Prop} {g : Polygon K}
    (k : ∀ c ∈ g.border :: g.holes, R c c) : PolygonsMatch R g g :=
  ⟨k _ (by simp), List.forall₂_same.mpr fun c hc => k c (by simp [hc])⟩

theorem Area.Match.refl {R : Contour K → Contour K → Prop} {a : Area K} (k : ∀ c ∈ a.contours, R c c) : a.Match R a := by
  rcases a with a | a | a | a
  · exact k a (by simp [Area.contours])
  · exact List.forall₂_same.mpr k
  · exact PolygonsMatch.refl k
  · exact List.forall₂_same.mpr fun g hg => .refl fun c hc => k c (List.mem_flatMap.mpr ⟨g, hg, hc⟩)

theorem Area.Near.edges {δ : K} {a b : Area K} (m : a.Near δ b) :
    List.Forall₂ (Segment.Near δ) a.edges b.edges := by
  have poly : ∀ g h : Polygon K, PolygonsMatch (Contour.Near δ) g h →
      List.Forall₂ (Segment.Near δ) g.edgeList h.edgeList := fun g h m =>
    List.rel_append m.1.edges (forall₂_flatMap (fun _ _ h => Contour.Near.edges h) m.2)
  rcases a with a | a | a | a <;> rcases b with b | b | b | b <;> try exact m.elim
  · exact Contour.Near.edges m
  · exact forall₂_flatMap (fun _ _ h => Contour.Near.edges h) m
  · exact poly a b m
  · exact forall₂_flatMap poly m

theorem Line.Near.edges {δ : K} {a b : Line K} (m : a.Near δ b) : List.Forall₂ (Segment.Near δ) a.edges b.edges := by
  rcases a with a | a | a <;> rcases b with b | b | b <;> try exact m.elim
  · exact .cons m .nil
  · exact m
  · exact Contour.Near.edges m

theorem contour_edges {a : Area K} {c : Contour K} (hc : c ∈ a.contours) : c.edgeList ⊆ a.edges := by
  have poly : ∀ g : Polygon K, c ∈ g.border :: g.holes → c.edgeList ⊆ g.edgeList := by
    intro g hg e he
    rcases List.mem_cons.mp hg with rfl | hg
    · exact List.mem_append_left _ he
    · exact List.mem_append_right _ (List.mem_flatMap.mpr ⟨c, hg, he⟩)
  rcases a with a | a | a | a
  · rw [List.mem_singleton.mp hc]; exact List.Subset.refl _
  · exact fun e he => List.mem_flatMap.mpr ⟨c, hc, he⟩
  · exact poly a hc
  · obtain ⟨g, hg, h⟩ := List.mem_flatMap.mp hc
    exact fun e he => List.mem_flatMap.mpr ⟨g, hg, poly g h he⟩

theorem contour_simple {a : Area K} (va : a.Valid) {c : Contour K} (hc : c ∈ a.contours) : c.Simple := by
  have poly : ∀ g : Polygon K, g.Valid → c ∈ g.border :: g.holes → c.Simple := by
    intro g vg hg
    rcases List.mem_cons.mp hg with rfl | hg
    · exact vg.border
    · exact vg.holes.simple c hg
  rcases a with a | a | a | a
  · rw [List.mem_singleton.mp hc]; exact va
  · exact va.1.simple c hc
  · exact poly a va hc
  · obtain ⟨g, hg, h⟩ := List.mem_flatMap.mp hc
    exact poly g (va.1.valid g hg) h

theorem linePts_eq (a : Line K) : linePts a = segsPts a.edges := by
  rcases a with a | a | a
  · simp [linePts, segsPts, Line.edges]
  · rfl
  · rfl

/-! ### simple contours -/

theorem exists_map {α : Type} {R : α → α → Prop} {l l' : List α} (h : List.Forall₂ R l l') (hn : l.Nodup) :
    ∃ f : α → α, l' = l.map f ∧ ∀ x ∈ l, R x (f x) := by
  classical
  induction h with
  | nil => exact ⟨id, rfl, by simp⟩
  | @cons x y l l' h _ ih =>
    obtain ⟨f, rfl, k⟩ := ih (List.nodup_cons.mp hn).2
    have hx := (List.nodup_cons.mp hn).1
    refine ⟨Function.update f x y, ?_, ?_⟩
    · simp only [List.map_cons, Function.update_self, List.cons.injEq, true_and]
      refine List.map_congr_left fun z hz => ?_
      rw [Function.update_of_ne]
      rintro rfl
      exact hx hz
    · intro z hz
      rcases List.mem_cons.mp hz with rfl | hm
      · simpa using h
      · rw [Function.update_of_ne]
        · exact k z hm
        · rintro rfl
          exact hx hm

/-- Segments from a common point meet elsewhere only if one of them contains the end of the other. -/
theorem fork {v a b z : Point K} (h1 : z ∈ (⟨v, a⟩ : Segment K).pts) (h2 : z ∈ (⟨v, b⟩ : Segment K).pts) (hz : z ≠ v) :
    a ∈ (⟨v, b⟩ : Segment K).pts ∨ b ∈ (⟨v, a⟩ : Segment K).pts := by
  obtain ⟨s, s0, s1, rfl⟩ := h1
  obtain ⟨t, t0, t1, e⟩ := h2
  have s0 : 0 < s := lt_of_le_of_ne s0 (by rintro rfl; exact hz (lerp_zero _ _))
  have t0 : 0 < t := lt_of_le_of_ne t0 (by rintro rfl; exact hz (e.trans (lerp_zero _ _)))
  have ex := congrArg Point.x e
  have ey := congrArg Point.y e
  simp only [lerp] at ex ey
  rcases le_total t s with h | h
  · left
    refine ⟨t / s, (div_pos t0 s0).le, (div_le_one s0).mpr h, ?_⟩
    apply Point.ext <;> simp only [lerp] <;> field_simp <;> linarith
  · right
    refine ⟨s / t, (div_pos s0 t0).le, (div_le_one t0).mpr h, ?_⟩
    apply Point.ext <;> simp only [lerp] <;> field_simp <;> linarith

theorem not_mem_near {p : Point K} {s : Segment K} (h : p ∉ s.pts) :
    Small fun δ => ∀ (p' : Point K) (s' : Segment K), p.Near δ p' → s.Near δ s' → p' ∉ s'.pts := by
  refine (disjoint_near (s := ⟨p, p⟩) (t := s) ?_).mono fun δ k p' s' h1 h2 hp => ?_
  · rw [Set.eq_empty_iff_forall_notMem]
    rintro z ⟨⟨t, -, -, rfl⟩, hz⟩
    exact h (by simpa [lerp] using hz)
  · exact Set.eq_empty_iff_forall_notMem.mp (k ⟨p', p'⟩ s' ⟨h1, h1⟩ h2) p' ⟨Segment.start_mem _, hp⟩

theorem fork_near {v a b : Point K} (hv : v ≠ a) (hv' : v ≠ b)
    (h : ((⟨v, a⟩ : Segment K).pts ∩ (⟨v, b⟩ : Segment K).pts).Subsingleton) :
    Small fun δ => ∀ v' a' b' : Point K, v.Near δ v' → a.Near δ a' → b.Near δ b' →
      ∀ z ∈ (⟨v', a'⟩ : Segment K).pts ∩ (⟨v', b'⟩ : Segment K).pts, z = v' := by
  have m : v ∈ (⟨v, a⟩ : Segment K).pts ∩ (⟨v, b⟩ : Segment K).pts := ⟨Segment.start_mem _, Segment.start_mem _⟩
  refine ((not_mem_near (p := a) (s := ⟨v, b⟩) fun k => hv (h m ⟨Segment.finish_mem _, k⟩)).and
    (not_mem_near (p := b) (s := ⟨v, a⟩) fun k => hv' (h m ⟨k, Segment.finish_mem _⟩))).mono ?_
  intro δ k v' a' b' nv na nb z hz
  by_contra hn
  rcases fork hz.1 hz.2 hn with h | h
  · exact k.1 _ _ na ⟨nv, nb⟩ h
  · exact k.2 _ _ nb ⟨nv, na⟩ h

theorem meet_near {e f : Segment K} (he : e.Nondegenerate) (hf : f.Nondegenerate) (hs : (e.pts ∩ f.pts).Subsingleton)
    (h : ∀ p ∈ e.pts ∩ f.pts, e.IsEndpoint p ∧ f.IsEndpoint p) :
    Small fun δ => ∀ φ : Point K → Point K, e.start.Near δ (φ e.start) → e.finish.Near δ (φ e.finish) →
      f.start.Near δ (φ f.start) → f.finish.Near δ (φ f.finish) →
      ∀ p ∈ (⟨φ e.start, φ e.finish⟩ : Segment K).pts ∩ (⟨φ f.start, φ f.finish⟩ : Segment K).pts,
        (⟨φ e.start, φ e.finish⟩ : Segment K).IsEndpoint p ∧ (⟨φ f.start, φ f.finish⟩ : Segment K).IsEndpoint p := by
  have rev : ∀ a b : Point K, (⟨a, b⟩ : Segment K).pts = (⟨b, a⟩ : Segment K).pts := fun a b =>
    (Segment.pts_reverse ⟨a, b⟩).symm
  obtain ⟨a, b⟩ := e
  obtain ⟨c, d⟩ := f
  have he : a ≠ b := he
  have hf : c ≠ d := hf
  rcases Set.eq_empty_or_nonempty ((⟨a, b⟩ : Segment K).pts ∩ (⟨c, d⟩ : Segment K).pts) with k | ⟨v, k⟩
  · refine (disjoint_near k).mono fun δ k φ h1 h2 h3 h4 p hp => ?_
    exact absurd hp (Set.eq_empty_iff_forall_notMem.mp (k _ _ ⟨h1, h2⟩ ⟨h3, h4⟩) p)
  · obtain ⟨h1 | h1, h2 | h2⟩ := h v k
    all_goals
      simp only at h1 h2
      subst h1
      subst h2
    · refine (fork_near he hf hs).mono fun δ k φ h1 h2 h3 h4 p hp => ?_
      have := k _ _ _ h1 h2 h4 p hp
      exact ⟨.inl this, .inl this⟩
    · rw [rev c] at hs
      refine (fork_near he hf.symm hs).mono fun δ k φ h1 h2 h3 h4 p hp => ?_
      rw [rev (φ c)] at hp
      have := k _ _ _ h1 h2 h3 p hp
      exact ⟨.inl this, .inr this⟩
    · rw [rev a] at hs
      refine (fork_near he.symm hf hs).mono fun δ k φ h1 h2 h3 h4 p hp => ?_
      rw [rev (φ a)] at hp
      have := k _ _ _ h2 h1 h4 p hp
      exact ⟨.inr this, .inl this⟩
    · rw [rev a, rev c] at hs
      refine (fork_near he.symm hf.symm hs).mono fun δ k φ h1 h2 h3 h4 p hp => ?_
      rw [rev (φ a), rev (φ c)] at hp
      have := k _ _ _ h2 h1 h3 p hp
      exact ⟨.inr this, .inr this⟩

theorem simple_near {c : Contour K} (hs : c.Simple) : Small fun δ => ∀ c' : Contour K, c.Near δ c' → c'.Simple := by
  obtain ⟨M, o⟩ := hs.areal
  have hap := o.apart
  have h1 := Small.all (l := c.vertices) (P := fun v δ => ∀ w ∈ c.vertices, v ≠ w → ∀ v' w' : Point K, v.Near δ v' →
    w.Near δ w' → v' ≠ w') fun v _ => Small.all fun w _ => by
      by_cases h : v = w
      · exact small_of_forall fun δ k => absurd h k
      · refine (not_mem_near (p := v) (s := ⟨w, w⟩) ?_).mono fun δ k _ v' w' h1 h2 e => ?_
        · rintro ⟨t, -, -, e⟩
          exact h (by simpa [lerp] using e)
        · exact k v' ⟨w', w'⟩ h1 ⟨h2, h2⟩ (e ▸ Segment.start_mem _)
  have h2 := Small.all (l := c.edgeList) (P := fun e δ => ∀ f ∈ c.edgeList, (e.pts ∩ f.pts).Subsingleton →
    (∀ p ∈ e.pts ∩ f.pts, e.IsEndpoint p ∧ f.IsEndpoint p) →
    ∀ φ : Point K → Point K, e.start.Near δ (φ e.start) → e.finish.Near δ (φ e.finish) →
      f.start.Near δ (φ f.start) → f.finish.Near δ (φ f.finish) →
      ∀ p ∈ (⟨φ e.start, φ e.finish⟩ : Segment K).pts ∩ (⟨φ f.start, φ f.finish⟩ : Segment K).pts,
        (⟨φ e.start, φ e.finish⟩ : Segment K).IsEndpoint p ∧ (⟨φ f.start, φ f.finish⟩ : Segment K).IsEndpoint p)
    fun e he => Small.all fun f hf => by
      by_cases h : (e.pts ∩ f.pts).Subsingleton ∧ ∀ p ∈ e.pts ∩ f.pts, e.IsEndpoint p ∧ f.IsEndpoint p
      · exact (meet_near (hs.nondegenerate he) (hs.nondegenerate hf) h.1 h.2).mono fun δ k _ _ => k
      · exact small_of_forall fun δ k k' => absurd ⟨k, k'⟩ h
  refine (h1.and h2).mono fun δ k c' hn => ?_
  obtain ⟨φ, e, hφ⟩ := exists_map hn hs.nodup
  have edges : c'.edgeList = c.edgeList.map fun e => (⟨φ e.start, φ e.finish⟩ : Segment K) := by
    simp only [Contour.edgeList, e, List.length_map, ← List.map_rotate, List.map_zipWith, List.zipWith_map]
  refine ⟨?_, ?_, ?_⟩
  · rw [e, List.length_map]; exact hs.three
  · rw [e]
    refine List.Nodup.map_on (fun x hx y hy h => ?_) hs.nodup
    by_contra hne
    exact k.1 x hx y hy hne _ _ (hφ x hx) (hφ y hy) h
  · rw [edges, List.pairwise_map]
    refine (hap.and hs.meet).imp_of_mem fun {e f} he hf h => ?_
    have m := fun {e} (he : e ∈ c.edgeList) => Contour.mem_vertices_of_mem_edgeList he
    exact k.2 e he f hf h.1 h.2 φ (hφ _ (m he).1) (hφ _ (m he).2) (hφ _ (m hf).1) (hφ _ (m hf).2)
section

variable {context : Context K} (hc : context.Exact)

/-! ### locations -/

theorem area_congr {p p' : Point K} {a a' : Area K}
    (m : a.Match (fun c c' => region.locatePoint c p context = region.locatePoint c' p' context) a') :
    a.locate context p = a'.locate context p' := by
  have poly : ∀ g g' : Polygon K,
      PolygonsMatch (fun c c' => region.locatePoint c p context = region.locatePoint c' p' context) g g' →
      polygon.locatePoint g p context = polygon.locatePoint g' p' context := by
    rintro ⟨b, hs⟩ ⟨b', hs'⟩ ⟨h1, h2⟩
    have holes : polygon.locateInHoles context p hs = polygon.locateInHoles context p' hs' := by
      clear h1
      change List.Forall₂ _ hs hs' at h2
      induction h2 with
      | nil => rfl
      | cons h _ ih => simp only [polygon.locateInHoles, h, ih]
    have h1 : region.locatePoint b p context = region.locatePoint b' p' context := h1
    simp only [polygon.locatePoint, h1, holes]
  rcases a with a | a | a | a <;> rcases a' with b | b | b | b <;> try exact m.elim
  · exact m
  · change List.Forall₂ _ a b at m
    change multiregion.locatePoint a p context = multiregion.locatePoint b p' context
    induction m with
    | nil => rfl
    | cons h _ ih => simp only [multiregion.locatePoint, h, ih]
  · exact poly a b m
  · obtain ⟨a⟩ := a
    obtain ⟨b⟩ := b
    change List.Forall₂ _ a b at m
    change multipolygon.locateIn context p a = multipolygon.locateIn context p' b
    induction m with
    | nil => rfl
    | cons h _ ih => simp only [multipolygon.locateIn, poly _ _ h, ih]

theorem area_exterior {p : Point K} {a : Area K}
    (h : ∀ c ∈ a.contours, region.locatePoint c p context = .exterior) : a.locate context p = .exterior := by
  have poly : ∀ g : Polygon K, region.locatePoint g.border p context = .exterior →
      polygon.locatePoint g p context = .exterior := by
    intro g h
    simp [polygon.locatePoint, h]
  rcases a with a | a | a | a
  · exact h a (by simp [Area.contours])
  · change ∀ c ∈ a, _ at h
    change multiregion.locatePoint a p context = _
    induction a with
    | nil => rfl
    | cons c l ih =>
      simp only [multiregion.locatePoint, h c (by simp), ne_eq, not_true_eq_false, if_false]
      exact ih fun c hc => h c (by simp [hc])
  · exact poly a (h _ (by simp [Area.contours]))
  · obtain ⟨a⟩ := a
    change multipolygon.locateIn context p a = _
    replace h : ∀ g ∈ a, region.locatePoint g.border p context = .exterior := fun g hg =>
      h _ (List.mem_flatMap.mpr ⟨g, hg, by simp⟩)
    induction a with
    | nil => rfl
    | cons g l ih =>
      simp only [multipolygon.locateIn, poly g (h g (by simp)), ne_eq, not_true_eq_false, if_false]
      exact ih fun g hg => h g (by simp [hg])

include hc

theorem area_boundary {a : Area K} (va : a.Valid) (p : Point K) :
    a.locate context p = .boundary ↔ p ∈ segsPts a.edges := by
  rcases a with a | a | a | a
  · exact (region_located hc va).boundary p
  · rw [show segsPts (Area.edges (.multiregion a)) = Multiregion.pts a from segsPts_edgesOf a]
    exact (multiregion_located hc va.1).boundary p
  · rw [show segsPts (Area.edges (.polygon a)) = a.pts from Polygon.segsPts_edges a]
    exact (polygon_located hc va).boundary p
  · rw [show segsPts (Area.edges (.multipolygon a)) = a.pts from segsPts_polygonsEdges a]
    exact (multipolygon_located hc va.1).boundary p

/-- The location does not change along a segment which avoids the edges. -/
theorem area_along {a : Area K} {p q : Point K} (h : ∀ z ∈ (⟨p, q⟩ : Segment K).pts, z ∉ segsPts a.edges) :
    a.locate context p = a.locate context q := by
  refine area_congr (.refl fun c hm => locatePoint_eq_of_disjoint hc c ?_)
  rw [Set.disjoint_left]
  rintro z hz ⟨e, he, hze⟩
  exact h z hz ⟨e, contour_edges hm he, hze⟩

/-- The location of a point which is not on an edge does not change by small moves. -/
theorem area_near {a : Area K} {p : Point K} (hp : p ∉ segsPts a.edges) :
    Small fun δ => ∀ (p' : Point K) (a' : Area K), p.Near δ p' → a.Near δ a' →
      a.locate context p = a'.locate context p' := by
  refine (Small.all (l := a.contours) (P := fun c δ => ∀ (p' : Point K) (c' : Contour K), p.Near δ p' → c.Near δ c' →
    region.locatePoint c p context = region.locatePoint c' p' context) fun c hm => ?_).mono fun δ k p' a' h1 h2 => ?_
  · exact locatePoint_near hc c fun h => hp (h.imp fun e he => ⟨contour_edges hm he.1, he.2⟩)
  · exact area_congr (Area.Match.imp h2 fun c hm c' h => k c hm p' c' h1 h)

/-- Far away everything is outside. -/
theorem area_far {a : Area K} (va : a.Valid) : ∃ q, a.locate context q = .exterior := by
  have key : ∀ l : List (Contour K), (∀ c ∈ l, c.Simple) → ∃ m : K, ∀ c ∈ l, ∀ q : Point K, m < q.x →
      region.locatePoint c q context = .exterior := by
    intro l hl
    induction l with
    | nil => exact ⟨0, by simp⟩
    | cons c l ih =>
      obtain ⟨m, hm⟩ := ih fun c hc => hl c (by simp [hc])
      refine ⟨max m (context.contourBox c).maxX, fun d hd q hq => ?_⟩
      rcases List.mem_cons.mp hd with rfl | hd
      · exact C11_exterior_outside_box hc d (hc.contourBox d (hl d (by simp)).ne_nil)
          (.inr (.inl ((le_max_right _ _).trans_lt hq)))
      · exact hm d hd q ((le_max_left _ _).trans_lt hq)
  obtain ⟨m, hm⟩ := key a.contours fun c h => contour_simple va h
  exact ⟨⟨m + 1, 0⟩, area_exterior fun c h => hm c h _ (lt_add_one m)⟩

/-- From every point inside of a geometry the boundary can be reached without meeting edges which are outside. -/
theorem area_reach {a : Area K} (va : a.Valid) {l : List (Segment K)}
    (hl : ∀ z ∈ segsPts l, a.locate context z = .exterior) {p : Point K} (hp : a.locate context p = .interior) :
    ∃ z ∈ segsPts a.edges, ∀ w ∈ (⟨p, z⟩ : Segment K).pts, w ∉ segsPts l := by
  obtain ⟨q, hq⟩ := area_far hc va
  have hpq : q ≠ p := by rintro rfl; rw [hp] at hq; cases hq
  have hit : ∃ u, 0 ≤ u ∧ u ≤ 1 ∧ lerp q p u ∈ segsPts a.edges := by
    by_contra hn
    have := area_along hc (a := a) (p := q) (q := p) fun z ⟨u, u0, u1, e⟩ hz => hn ⟨u, u0, u1, e ▸ hz⟩
    rw [hp, hq] at this
    cases this
  obtain ⟨u, u0, u1, hu, hmax⟩ := exists_last hpq a.edges hit
  refine ⟨_, hu, ?_⟩
  rintro w ⟨r, r0, r1, rfl⟩ hw
  have e : lerp p (lerp q p u) r = lerp q p (1 + r * (u - 1)) := by
    conv_lhs => rw [show lerp p (lerp q p u) r = lerp (lerp q p 1) (lerp q p u) r by rw [lerp_one]]
    rw [lerp_lerp]
  simp only [e] at hw
  have ext := hl _ hw
  by_cases h0 : 1 + r * (u - 1) = u
  · rw [h0, (area_boundary hc va _).mpr hu] at ext
    cases ext
  · have hlt : u < 1 + r * (u - 1) := lt_of_le_of_ne (by nlinarith) (Ne.symm h0)
    have := area_along hc (a := a) (p := lerp q p (1 + r * (u - 1))) (q := p) ?_
    · rw [ext, hp] at this
      cases this
    · rintro z ⟨v, v0, v1, rfl⟩ hz
      have e : lerp (lerp q p (1 + r * (u - 1))) p v =
          lerp q p (1 + r * (u - 1) + v * (1 - (1 + r * (u - 1)))) := by
        conv_lhs => rw [show lerp (lerp q p (1 + r * (u - 1))) p v =
          lerp (lerp q p (1 + r * (u - 1))) (lerp q p 1) v by rw [lerp_one]]
        rw [lerp_lerp]
      simp only [e] at hz
      have hr : r * (u - 1) ≤ 0 := mul_nonpos_of_nonneg_of_nonpos r0 (by linarith)
      have hv : 0 ≤ v * (1 - (1 + r * (u - 1))) := mul_nonneg v0 (by linarith)
      have hv' : v * (1 - (1 + r * (u - 1))) ≤ 1 - (1 + r * (u - 1)) := mul_le_of_le_one_left (by linarith) v1
      have := hmax _ (by linarith) hz
      linarith

/-- Edges inside or outside of a geometry stay there. -/
theorem edges_near {b : Area K} (vb : b.Valid) {l : List (Segment K)} {q : Location} (hq : q ≠ .boundary)
    (h : ∀ z ∈ segsPts l, b.locate context z = q) :
    Small fun δ => ∀ (l' : List (Segment K)) (b' : Area K), List.Forall₂ (Segment.Near δ) l l' → b.Near δ b' →
      ∀ z ∈ segsPts l', b'.locate context z = q := by
  have off : ∀ z ∈ segsPts l, z ∉ segsPts b.edges := by
    intro z hz hb
    rw [← area_boundary hc vb, h z hz] at hb
    exact hq hb
  refine (Small.all (l := l) (P := fun e δ => (∀ (p' : Point K) (b' : Area K), e.start.Near δ p' → b.Near δ b' →
    b.locate context e.start = b'.locate context p') ∧ ∀ f ∈ b.edges, ∀ e' f' : Segment K, e.Near δ e' → f.Near δ f' →
    e'.pts ∩ f'.pts = ∅) fun e he => ?_).mono fun δ k l' b' hl hb => ?_
  · refine (area_near hc (off _ ⟨e, he, e.start_mem⟩)).and (Small.all fun f hf => disjoint_near ?_)
    rw [Set.eq_empty_iff_forall_notMem]
    exact fun z hz => off z ⟨e, he, hz.1⟩ ⟨f, hf, hz.2⟩
  · rintro z ⟨e', he', hz⟩
    obtain ⟨e, he, hn⟩ := forall₂_mem_right hl e' he'
    obtain ⟨k1, k2⟩ := k e he
    rw [← h e.start ⟨e, he, e.start_mem⟩, k1 e'.start b' hn.1 hb]
    refine (area_along hc ?_).symm
    rintro w hw ⟨f', hf', hwf⟩
    obtain ⟨f, hf, hm⟩ := forall₂_mem_right hb.edges f' hf'
    exact Set.eq_empty_iff_forall_notMem.mp (k2 f hf e' f' hn hm) w
      ⟨Segment.pts_subset e'.start_mem hz hw, hwf⟩

theorem disjoint_of_edges {a b : Area K} (va : a.Valid) (h1 : ∀ z ∈ segsPts a.edges, b.locate context z = .exterior)
    (h2 : ∀ z ∈ segsPts b.edges, a.locate context z = .exterior) :
    ArealLocations (a.locate context) (b.locate context) .disjoint := by
  intro p
  cases hp : a.locate context p
  · exact .inl rfl
  · exact .inr (h1 p ((area_boundary hc va p).mp hp))
  · obtain ⟨z, hz, hw⟩ := area_reach hc va h2 hp
    exact .inr ((area_along hc hw).trans (h1 z hz))

theorem within_of_edges {a b : Area K} (va : a.Valid) (h1 : ∀ z ∈ segsPts a.edges, b.locate context z = .interior)
    (h2 : ∀ z ∈ segsPts b.edges, a.locate context z = .exterior) :
    ArealLocations (a.locate context) (b.locate context) .within := by
  intro p hp
  cases hp' : a.locate context p
  · exact absurd hp' hp
  · exact h1 p ((area_boundary hc va p).mp hp')
  · obtain ⟨z, hz, hw⟩ := area_reach hc va h2 hp'
    exact (area_along hc hw).trans (h1 z hz)

/-! ### what the answers mean -/

theorem fits_locations {a b : Area K} (va : a.Valid) (vb : b.Valid) (h : a.Fits b) {r : Relation}
    (hr : a.relate context b = .ok r) (h1 : r ≠ .within) (h2 : r ≠ .cover) :
    ArealLocations (a.locate context) (b.locate context) r := by
  by_cases hs : a.Suits b
  · exact (C54_areas hc va vb hs r).mp hr
  rcases a with a | a | a | a <;> rcases b with b | b | b | b <;> try exact absurd h hs
  obtain ⟨q, hq, hrel⟩ := C25_polygon_in_polygon hc va vb h.1 h.2
  have : q = r := by
    have : Area.relate context (.polygon a) (.polygon b) = .ok q := hq
    rw [hr] at this
    cases this
    rfl
  subst this
  rcases hrel with hrel | ⟨rfl, -⟩ | ⟨rfl, -⟩
  · exact (arealLocations_iff (polygon_located hc va) (polygon_located hc vb) _).mpr hrel
  · exact absurd rfl h1
  · exact absurd rfl h2

theorem fits_relate {a b : Area K} (va : a.Valid) (vb : b.Valid) (h : a.Fits b) {r : Relation}
    (hr : ArealLocations (a.locate context) (b.locate context) r) (h1 : r ≠ .enclosed) (h2 : r ≠ .encloses) :
    a.relate context b = .ok r := by
  by_cases hs : a.Suits b
  · exact (C54_areas hc va vb hs r).mpr hr
  rcases a with a | a | a | a <;> rcases b with b | b | b | b <;> try exact absurd h hs
  obtain ⟨q, hq, hrel⟩ := C25_polygon_in_polygon hc va vb h.1 h.2
  have hr := (arealLocations_iff (polygon_located hc va) (polygon_located hc vb) _).mp hr
  obtain ⟨a1, a2, a3⟩ := polygon_apart va
  obtain ⟨b1, b2, b3⟩ := polygon_apart vb
  obtain ⟨j1, j2⟩ := polygon_nonempty va
  obtain ⟨k1, k2⟩ := polygon_nonempty vb
  have u : ∀ {x}, PolygonRel a b x → x = r := fun hx => CompoundRel.unique j1 j2 k1 k2 a1 a2 b1 b2 hx hr
  rcases hrel with hrel | ⟨-, -, hrel⟩ | ⟨-, -, hrel⟩
  · rw [← u hrel]; exact hq
  · exact absurd (u hrel).symm h1
  · exact absurd (u hrel).symm h2

/-! ### the theorems -/

/-- C71: a point inside or outside of an areal geometry stays there if it and the vertices move a little. -/
theorem C71_point {a : Area K} (va : a.Valid) {p : Point K} (hp : a.locate context p ≠ .boundary) :
    ∃ δ, 0 < δ ∧ ∀ (p' : Point K) (a' : Area K), p.Near δ p' → a.Near δ a' →
      a'.locate context p' = a.locate context p := by
  rw [ne_eq, area_boundary hc va] at hp
  obtain ⟨δ, h0, h⟩ := (area_near hc hp).exists
  exact ⟨δ, h0, fun p' a' h1 h2 => (h p' a' h1 h2).symm⟩

/-- C71: a point which is not on a linear geometry stays so. -/
theorem C71_point_line {a : Line K} {p : Point K} (hp : a.locate context p = .exterior) :
    ∃ δ, 0 < δ ∧ ∀ (p' : Point K) (a' : Line K), p.Near δ p' → a.Near δ a' → a'.locate context p' = .exterior := by
  have off : p ∉ segsPts a.edges := by
    rw [← linePts_eq, ← line_located hc, hp]
    simp
  have := Small.all (l := a.edges) (P := fun e δ => ∀ (s' e' : Segment K), (⟨p, p⟩ : Segment K).Near δ s' → e.Near δ e' →
    s'.pts ∩ e'.pts = ∅) fun e he => disjoint_near (by
      rw [Set.eq_empty_iff_forall_notMem]
      rintro z ⟨⟨t, -, -, rfl⟩, hz⟩
      refine off ⟨e, he, ?_⟩
      simpa [lerp] using hz)
  obtain ⟨δ, h0, h⟩ := this.exists
  refine ⟨δ, h0, fun p' a' h1 h2 => ?_⟩
  have hb : a'.locate context p' ≠ .boundary := by
    rw [ne_eq, line_located hc, linePts_eq]
    rintro ⟨e', he', hz⟩
    obtain ⟨e, he, hn⟩ := forall₂_mem_right h2.edges e' he'
    exact Set.eq_empty_iff_forall_notMem.mp (h e he ⟨p', p'⟩ e' ⟨h1, h1⟩ hn) p' ⟨Segment.start_mem _, hz⟩
  have := line_not_interior (context := context) a' p'
  cases e : a'.locate context p' <;> simp_all

/-- C71: the relations `DISJOINT`, `WITHIN`, `COVER` and `OVERLAP` of areal geometries do not change if the vertices
move a little. -/
theorem C71_areas {a b : Area K} (va : a.Valid) (vb : b.Valid) (hab : a.Suits b) {r : Relation}
    (hr : r = .disjoint ∨ r = .within ∨ r = .cover ∨ r = .overlap) (h : a.relate context b = .ok r) :
    ∃ δ, 0 < δ ∧ ∀ a' b' : Area K, a.Near δ a' → b.Near δ b' → a'.Valid → b'.Valid → a'.Fits b' →
      a'.relate context b' = .ok r := by
  rw [C54_areas hc va vb hab] at h
  have ba := area_boundary hc va
  have bb := area_boundary hc vb
  have within : ∀ {a b : Area K}, a.Valid → b.Valid → ArealLocations (a.locate context) (b.locate context) .within →
      Small fun δ => ∀ a' b' : Area K, a.Near δ a' → b.Near δ b' → a'.Valid →
        ArealLocations (a'.locate context) (b'.locate context) .within := by
    intro a b va vb h
    have h1 : ∀ z ∈ segsPts a.edges, b.locate context z = .interior := by
      intro z hz
      rw [← area_boundary hc va] at hz
      exact h z (by rw [hz]; simp)
    have h2 : ∀ z ∈ segsPts b.edges, a.locate context z = .exterior := by
      intro z hz
      rw [← area_boundary hc vb] at hz
      by_contra hn
      rw [h z hn] at hz
      cases hz
    refine ((edges_near hc vb (by simp) h1).and (edges_near hc va (by simp) h2)).mono fun δ k a' b' na nb va' => ?_
    exact within_of_edges hc va' (k.1 _ _ na.edges nb) (k.2 _ _ nb.edges na)
  rcases hr with rfl | rfl | rfl | rfl
  · have h1 : ∀ z ∈ segsPts a.edges, b.locate context z = .exterior := by
      intro z hz
      rw [← ba] at hz
      exact (h z).resolve_left (by rw [hz]; simp)
    have h2 : ∀ z ∈ segsPts b.edges, a.locate context z = .exterior := by
      intro z hz
      rw [← bb] at hz
      exact (h z).resolve_right (by rw [hz]; simp)
    obtain ⟨δ, h0, k⟩ := ((edges_near hc vb (by simp) h1).and (edges_near hc va (by simp) h2)).exists
    refine ⟨δ, h0, fun a' b' na nb va' vb' hs => fits_relate hc va' vb' hs ?_ (by simp) (by simp)⟩
    exact disjoint_of_edges hc va' (k.1 _ _ na.edges nb) (k.2 _ _ nb.edges na)
  · obtain ⟨δ, h0, k⟩ := (within va vb h).exists
    exact ⟨δ, h0, fun a' b' na nb va' vb' hs => fits_relate hc va' vb' hs (k a' b' na nb va') (by simp) (by simp)⟩
  · obtain ⟨δ, h0, k⟩ := (within vb va h).exists
    exact ⟨δ, h0, fun a' b' na nb va' vb' hs => fits_relate hc va' vb' hs (k b' a' nb na vb') (by simp) (by simp)⟩
  · obtain ⟨⟨x, x1, x2⟩, ⟨y, y1, y2⟩, z, z1, z2⟩ := h
    have off : ∀ {a : Area K}, a.Valid → ∀ {p}, a.locate context p ≠ .boundary → p ∉ segsPts a.edges :=
      fun va p hp h => hp ((area_boundary hc va p).mpr h)
    have nx := (area_near hc (off va (p := x) (by rw [x1]; simp))).and (area_near hc (off vb (p := x) (by rw [x2]; simp)))
    have ny := (area_near hc (off va (p := y) (by rw [y1]; simp))).and (area_near hc (off vb (p := y) (by rw [y2]; simp)))
    have nz := (area_near hc (off va (p := z) (by rw [z1]; simp))).and (area_near hc (off vb (p := z) (by rw [z2]; simp)))
    obtain ⟨δ, h0, k⟩ := (nx.and (ny.and nz)).exists
    refine ⟨δ, h0, fun a' b' na nb va' vb' hs => fits_relate hc va' vb' hs ?_ (by simp) (by simp)⟩
    obtain ⟨⟨kx, kx'⟩, ⟨ky, ky'⟩, kz, kz'⟩ := k
    exact ⟨⟨x, (kx x a' (x.near_self h0) na).symm.trans x1, (kx' x b' (x.near_self h0) nb).symm.trans x2⟩,
      ⟨y, (ky y a' (y.near_self h0) na).symm.trans y1, (ky' y b' (y.near_self h0) nb).symm.trans y2⟩,
      z, (kz z a' (z.near_self h0) na).symm.trans z1, (kz' z b' (z.near_self h0) nb).symm.trans z2⟩

/-- C71: the relations `DISJOINT`, `WITHIN` and `CROSS` of a linear geometry to an areal one do not change if the
vertices move a little. -/
theorem C71_line {a : Line K} {b : Area K} (va : a.Valid) (vb : b.Valid) (hab : a.Suits b) {r : Relation}
    (hr : r = .disjoint ∨ r = .within ∨ r = .cross) (h : a.relate context b = .ok r) :
    ∃ δ, 0 < δ ∧ ∀ (a' : Line K) (b' : Area K), a.Near δ a' → b.Near δ b' → a'.Valid → b'.Valid → a'.Suits b' →
      a'.relate context b' = .ok r := by
  rw [C54_lines hc va vb hab] at h
  have on : ∀ a : Line K, ∀ z, a.locate context z = .boundary ↔ z ∈ segsPts a.edges := by
    intro a z
    rw [line_located hc, linePts_eq]
  have same : ∀ {q}, q ≠ .boundary → (∀ z, a.locate context z = .boundary → b.locate context z = q) →
      ∃ δ, 0 < δ ∧ ∀ (a' : Line K) (b' : Area K), a.Near δ a' → b.Near δ b' →
        ∀ z, a'.locate context z = .boundary → b'.locate context z = q := by
    intro q hq h
    obtain ⟨δ, h0, k⟩ := (edges_near hc vb hq fun z hz => h z ((on a z).mpr hz)).exists
    exact ⟨δ, h0, fun a' b' na nb z hz => k _ _ na.edges nb z ((on a' z).mp hz)⟩
  rcases hr with rfl | rfl | rfl
  · obtain ⟨δ, h0, k⟩ := same (by simp) h
    exact ⟨δ, h0, fun a' b' na nb va' vb' hs => (C54_lines hc va' vb' hs _).mpr (k a' b' na nb)⟩
  · obtain ⟨δ, h0, k⟩ := same (by simp) h
    exact ⟨δ, h0, fun a' b' na nb va' vb' hs => (C54_lines hc va' vb' hs _).mpr (k a' b' na nb)⟩
  · have wit : ∀ {q}, q ≠ .boundary → (∃ z, a.locate context z = .boundary ∧ b.locate context z = q) →
        Small fun δ => ∀ (a' : Line K) (b' : Area K), a.Near δ a' → b.Near δ b' →
          ∃ z, a'.locate context z = .boundary ∧ b'.locate context z = q := by
      rintro q hq ⟨z, hz, hz'⟩
      obtain ⟨e, he, t, t0, t1, rfl⟩ := (on a z).mp hz
      refine (area_near hc (a := b) (p := lerp e.start e.finish t) fun h => hq ?_).mono fun δ k a' b' na nb => ?_
      · rw [← hz', (area_boundary hc vb _).mpr h]
      · obtain ⟨e', he', hn⟩ := forall₂_mem_left na.edges e he
        refine ⟨lerp e'.start e'.finish t, (on a' _).mpr ⟨e', he', t, t0, t1, rfl⟩, ?_⟩
        rw [← k _ b' (lerp_near hn t0 t1) nb, hz']
    obtain ⟨δ, h0, k⟩ := ((wit (by simp) h.1).and (wit (by simp) h.2)).exists
    exact ⟨δ, h0, fun a' b' na nb va' vb' hs =>
      (C54_lines hc va' vb' hs .cross).mpr ⟨k.1 a' b' na nb, k.2 a' b' na nb⟩⟩

/-- C71: linear geometries without common points have none if the vertices move a little. -/
theorem C71_lines {a b : Line K} (va : a.Valid) (vb : b.Valid) (h : a.relateLine context b = .ok .disjoint) :
    ∃ δ, 0 < δ ∧ ∀ a' b' : Line K, a.Near δ a' → b.Near δ b' → a'.Valid → b'.Valid →
      a'.relateLine context b' = .ok .disjoint := by
  have h := lines_fact hc va vb h
  simp only [LinesFact, linePts_eq, Set.eq_empty_iff_forall_notMem] at h
  have := Small.all (l := a.edges) (P := fun e δ => ∀ f ∈ b.edges, ∀ e' f' : Segment K, e.Near δ e' → f.Near δ f' →
    e'.pts ∩ f'.pts = ∅) fun e he => Small.all fun f hf => disjoint_near (by
      rw [Set.eq_empty_iff_forall_notMem]
      exact fun z hz => h z ⟨⟨e, he, hz.1⟩, ⟨f, hf, hz.2⟩⟩)
  obtain ⟨δ, h0, k⟩ := this.exists
  refine ⟨δ, h0, fun a' b' na nb va' vb' => ?_⟩
  have no : ∀ p ∈ linePts a', p ∉ linePts b' := by
    simp only [linePts_eq]
    rintro z ⟨e', he', hz⟩ ⟨f', hf', hz'⟩
    obtain ⟨e, he, ne⟩ := forall₂_mem_right na.edges e' he'
    obtain ⟨f, hf, nf⟩ := forall₂_mem_right nb.edges f' hf'
    exact Set.eq_empty_iff_forall_notMem.mp (k e he f hf e' f' ne nf) z ⟨hz, hz'⟩
  obtain ⟨r, hr⟩ := lines_relate_total hc va' vb'
  have k := lines_fact hc va' vb' hr
  obtain ⟨z, hz⟩ := line_inhabited hc va' .boundary (by simp)
  obtain ⟨w, hw⟩ := line_inhabited hc vb' .boundary (by simp)
  rw [line_located hc] at hz hw
  rw [hr]
  cases r <;> simp only [LinesFact] at k <;> try rfl
  · obtain ⟨p, h1, h2⟩ := k
    exact absurd h2 (no p h1)
  · obtain ⟨p, h1, h2⟩ := k
    exact absurd h2 (no p h1)
  · obtain ⟨p, h1, h2⟩ := k
    exact absurd h2 (no p h1)
  · exact absurd hw (no w (k hw))
  · exact absurd (k ▸ hz) (no z hz)
  · exact absurd (k hz) (no z hz)

omit hc in
/-- Each segment separates the endpoints of the other. -/
theorem segments_cross {s t : Segment K} (hs : s.Nondegenerate) (ht : t.Nondegenerate) :
    SegmentsRel s t .cross ↔ cross s.start s.finish t.start * cross s.start s.finish t.finish < 0 ∧
      cross t.start t.finish s.start * cross t.start t.finish s.finish < 0 := by
  constructor
  · rintro ⟨p, e, h1, h2⟩
    have hp : p ∈ s.pts ∩ t.pts := by rw [e]; rfl
    have hn : ¬ s.Collinear t := by
      intro h
      have := h.nontrivial_of_inner hs ht ⟨hp.1, h1⟩ hp.2
      rw [e] at this
      exact Set.not_nontrivial_singleton this
    exact ⟨Segment.strict_signs_of_mem_inter hn hp.1 hp.2 h2,
      Segment.strict_signs_of_mem_inter (Segment.not_collinear_symm hs ht hn) hp.2 hp.1 h1⟩
  · rintro ⟨h1, h2⟩
    have hn : ¬ s.Collinear t := by
      rintro ⟨h, -⟩
      rw [h] at h1
      simp at h1
    obtain ⟨u, v, u0, u1, v0, v1, e, -⟩ := Segment.exists_mem_inter hn h1.le h2.le
    have m1 : lerp s.start s.finish u ∈ s.pts := ⟨u, u0, u1, rfl⟩
    have m2 : lerp s.start s.finish u ∈ t.pts := ⟨v, v0, v1, e⟩
    refine ⟨_, Segment.inter_eq_singleton ht hn m1 m2, ?_, ?_⟩
    · have := Segment.cross_eq_zero m2
      rintro (k | k) <;> rw [k] at this <;> rw [this] at h2 <;> simp at h2
    · have := Segment.cross_eq_zero m1
      rintro (k | k) <;> rw [k] at this <;> rw [this] at h1 <;> simp at h1

/-- C71: segments which cross each other still do if their endpoints move a little. -/
theorem C71_segments {s t : Segment K} (hs : s.Nondegenerate) (ht : t.Nondegenerate)
    (h : planar.segmentInSegment s t context = .cross) :
    ∃ δ, 0 < δ ∧ ∀ s' t' : Segment K, s.Near δ s' → t.Near δ t' → s'.Nondegenerate → t'.Nondegenerate →
      planar.segmentInSegment s' t' context = .cross := by
  have iff : ∀ {s t : Segment K}, s.Nondegenerate → t.Nondegenerate → (planar.segmentInSegment s t context = .cross ↔
      cross s.start s.finish t.start * cross s.start s.finish t.finish < 0 ∧
      cross t.start t.finish s.start * cross t.start t.finish s.finish < 0) := fun hs ht =>
    (hc.relation_eq_iff hs ht .cross).trans (segments_cross hs ht)
  have near : ∀ {s t : Segment K}, cross s.start s.finish t.start * cross s.start s.finish t.finish < 0 →
      Small fun δ => ∀ s' t' : Segment K, s.Near δ s' → t.Near δ t' →
        cross s'.start s'.finish t'.start * cross s'.start s'.finish t'.finish < 0 := by
    intro s t h
    rcases mul_neg_iff.mp h with ⟨h1, h2⟩ | ⟨h1, h2⟩
    · exact ((cross_pos_near h1).and (cross_neg_near h2)).mono fun δ k s' t' n m =>
        mul_neg_of_pos_of_neg (k.1 _ _ _ n.1 n.2 m.1) (k.2 _ _ _ n.1 n.2 m.2)
    · exact ((cross_neg_near h1).and (cross_pos_near h2)).mono fun δ k s' t' n m =>
        mul_neg_of_neg_of_pos (k.1 _ _ _ n.1 n.2 m.1) (k.2 _ _ _ n.1 n.2 m.2)
  rw [iff hs ht] at h
  obtain ⟨δ, h0, k⟩ := ((near h.1).and (near h.2)).exists
  exact ⟨δ, h0, fun s' t' n m hs' ht' => (iff hs' ht').mpr ⟨k.1 s' t' n m, k.2 t' s' m n⟩⟩

/-- C71: a simple contour stays simple. -/
theorem C71_simple {c : Contour K} (hs : c.Simple) : ∃ δ, 0 < δ ∧ ∀ c' : Contour K, c.Near δ c' → c'.Simple :=
  (simple_near hs).exists

/-- C71: for regions bounded by simple contours nothing has to be supposed about the moved ones. -/
theorem C71_regions {a b : Contour K} (va : a.Simple) (vb : b.Simple) {r : Relation}
    (hr : r = .disjoint ∨ r = .within ∨ r = .cover ∨ r = .overlap) (h : planar.regionInRegion a b context = .ok r) :
    ∃ δ, 0 < δ ∧ ∀ a' b' : Contour K, a.Near δ a' → b.Near δ b' → planar.regionInRegion a' b' context = .ok r := by
  obtain ⟨δ, h0, k⟩ := C71_areas hc (a := .region a) (b := .region b) va vb trivial hr h
  obtain ⟨η, e0, ka, kb⟩ := ((simple_near va).and (simple_near vb)).exists_le h0
  exact ⟨η, e0.1, fun a' b' na nb => k (.region a') (.region b') (na.mono e0.2) (nb.mono e0.2) (ka a' na) (kb b' nb) trivial⟩

/-- C71: likewise for a contour and a region. -/
theorem C71_contour_region {a b : Contour K} (va : a.Simple) (vb : b.Simple) {r : Relation}
    (hr : r = .disjoint ∨ r = .within ∨ r = .cross) (h : planar.contourInRegion a b context = .ok r) :
    ∃ δ, 0 < δ ∧ ∀ a' b' : Contour K, a.Near δ a' → b.Near δ b' → planar.contourInRegion a' b' context = .ok r := by
  obtain ⟨δ, h0, k⟩ := C71_line hc (a := .contour a) (b := .region b) va vb trivial hr h
  obtain ⟨η, e0, ka, kb⟩ := ((simple_near va).and (simple_near vb)).exists_le h0
  exact ⟨η, e0.1, fun a' b' na nb => k (.contour a') (.region b') (na.mono e0.2) (nb.mono e0.2) (ka a' na) (kb b' nb) trivial⟩

end

end Orient.Props
