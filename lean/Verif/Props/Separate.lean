import Verif.Lemmas.Separate
import Verif.Props.Convex
import Verif.Props.Nodes

/-! C68: convex regions have no common inner points iff an edge of one of them separates them. -/

set_option linter.unusedSectionVars false

namespace Orient.Props

variable {K : Type} [Field K] [LinearOrder K] [IsStrictOrderedRing K]

theorem pos_combination (x y t : K) (hx : 0 < x) (hy : 0 < y) (t0 : 0 ≤ t) (t1 : t ≤ 1) :
    0 < (1 - t) * x + t * y := by
  rcases t0.eq_or_lt with rfl | t0
  · linarith
  · have := mul_nonneg (sub_nonneg.mpr t1) hx.le
    have := mul_pos t0 hy
    linarith

theorem nonneg_combination (x y t : K) (hx : 0 ≤ x) (hy : 0 ≤ y) (t0 : 0 ≤ t) (t1 : t ≤ 1) :
    0 ≤ (1 - t) * x + t * y := by
  have := mul_nonneg (sub_nonneg.mpr t1) hx
  have := mul_nonneg t0 hy
  linarith

theorem sideOf_linear (σ : K) (e : Segment K) (p : Point K) :
    sideOf σ e p = linear (σ * (e.start.y - e.finish.y)) (σ * (e.finish.x - e.start.x))
      (σ * (e.start.x * (e.finish.y - e.start.y) - e.start.y * (e.finish.x - e.start.x))) p := by
  simp only [sideOf, linear, cross]
  ring

theorem sideOf_slope {σ : K} (hσ : σ ≠ 0) {e : Segment K} (he : e.Nondegenerate) :
    σ * (e.start.y - e.finish.y) ≠ 0 ∨ σ * (e.finish.x - e.start.x) ≠ 0 := by
  by_contra h
  push Not at h
  obtain ⟨h1, h2⟩ := h
  obtain ⟨⟨a, b⟩, ⟨c, d⟩⟩ := e
  simp only [mul_eq_zero, hσ, false_or, sub_eq_zero] at h1 h2
  exact he (by simp [h1, h2])

theorem sideOf_mul {σ : K} (hσ : σ ≠ 0) (e : Segment K) (p q : Point K) :
    (sideOf σ e p * sideOf σ e q ≤ 0 ↔ cross e.start e.finish p * cross e.start e.finish q ≤ 0) ∧
    (0 ≤ sideOf σ e p * sideOf σ e q ↔ 0 ≤ cross e.start e.finish p * cross e.start e.finish q) ∧
    (sideOf σ e p ≠ 0 ↔ cross e.start e.finish p ≠ 0) := by
  have h : 0 < σ * σ := mul_self_pos.mpr hσ
  have : sideOf σ e p * sideOf σ e q = (σ * σ) * (cross e.start e.finish p * cross e.start e.finish q) := by
    simp only [sideOf]
    ring
  rw [this]
  refine ⟨⟨fun k => ?_, fun k => mul_nonpos_of_nonneg_of_nonpos h.le k⟩, ⟨fun k => ?_, fun k => mul_nonneg h.le k⟩, ?_⟩
  · by_contra hn
    push Not at hn
    exact not_lt.mpr k (mul_pos h hn)
  · by_contra hn
    push Not at hn
    exact not_lt.mpr k (mul_neg_of_pos_of_neg h hn)
  · simp [sideOf, hσ]

/-- Inner points reach as far as vertices do, in every direction. -/
theorem near_vertex {c : Contour K} (hs : c.Simple) (h : c.Convex) {v : Point K} (hv : v ∈ c.vertices) {τ : K}
    {e : Segment K} (hp : 0 < sideOf τ e v) : ∃ p ∈ c.interior, 0 < sideOf τ e p := by
  obtain ⟨q, hq⟩ := hs.interior_nonempty
  by_cases k : 0 < sideOf τ e q
  · exact ⟨q, hq, k⟩
  push Not at k
  set s := sideOf τ e q with hs'
  set m := sideOf τ e v with hm
  have d : 0 < m - s := by linarith
  set t := (1 + (-s) / (m - s)) / 2 with ht
  have f : (-s) / (m - s) < 1 := by rw [div_lt_one d]; linarith
  have f0 : 0 ≤ (-s) / (m - s) := div_nonneg (by linarith) d.le
  have t0 : 0 ≤ t := by rw [ht]; linarith
  have t1 : t < 1 := by rw [ht]; linarith
  have hv' : v ∉ c.exterior := fun k => hs.split.be v (Contour.vertex_mem_pts hv) k
  have val : sideOf τ e (lerp q v t) = m / 2 := by
    rw [sideOf_lerp, ← hs', ← hm]
    have : t * (m - s) = (m - s - s) / 2 := by
      rw [ht]
      field_simp
      ring
    linarith
  refine ⟨lerp q v t, (convex_segment hs h (s := ⟨q, v⟩)).2.1 hq hv' _ ⟨t, t0, t1.le, rfl⟩ fun k => ?_, ?_⟩
  · simp only at k
    rw [k] at val
    linarith
  · rw [val]
    linarith

/-- A convex region has a vertex off the line of a segment. -/
theorem exists_off {c : Contour K} (hs : c.Simple) {e : Segment K} (he : e.Nondegenerate) :
    ∃ v ∈ c.vertices, cross e.start e.finish v ≠ 0 := by
  by_contra hn
  push Not at hn
  obtain ⟨q, hq⟩ := hs.interior_nonempty
  have k : ∀ {σ : K}, σ ≠ 0 → 0 < sideOf σ e q := fun {σ} hσ => by
    rw [sideOf_linear]
    refine hs.linear_interior (sideOf_slope hσ he) (fun v hv => ?_) hq
    rw [← sideOf_linear, sideOf, hn v hv, mul_zero]
  have k1 := k (σ := 1) one_ne_zero
  have k2 := k (σ := -1) (by simp)
  simp only [sideOf] at k1 k2
  linarith

/-- An edge which separates two lists of points, one of them vertices on one side of it. -/
theorem parts_side {c : Contour K} (hs : c.Simple) {σ : K} (hσ : σ ≠ 0) {e : Segment K} (he : e.Nondegenerate)
    (hp : ∀ v ∈ c.vertices, 0 ≤ sideOf σ e v) (l : List (Point K)) :
    (e.Parts c.vertices l ↔ ∀ q ∈ l, sideOf σ e q ≤ 0) ∧
    (e.Parts c.vertices l ∧ e.Clear l ↔ ∀ q ∈ l, sideOf σ e q < 0) := by
  have k1 : e.Parts c.vertices l ↔ ∀ q ∈ l, sideOf σ e q ≤ 0 := by
    constructor
    · intro h q hq
      obtain ⟨v, hv, h0⟩ := exists_off hs he
      have h1 := (hp v hv).lt_of_ne' (by rwa [sideOf, Ne, mul_eq_zero, not_or, and_iff_right hσ])
      have h2 := (sideOf_mul hσ e v q).1.mpr (h v hv q hq)
      by_contra hn
      push Not at hn
      exact not_lt.mpr h2 (mul_pos h1 hn)
    · intro h p hp' q hq
      exact (sideOf_mul hσ e p q).1.mp (mul_nonpos_of_nonneg_of_nonpos (hp p hp') (h q hq))
  refine ⟨k1, ?_⟩
  rw [k1]
  constructor
  · rintro ⟨h1, h2⟩ q hq
    exact (h1 q hq).lt_of_ne ((sideOf_mul hσ e q q).2.2.mpr (h2 q hq))
  · intro h
    exact ⟨fun q hq => (h q hq).le, fun q hq => (sideOf_mul hσ e q q).2.2.mp (h q hq).ne⟩

theorem parts_comm {e : Segment K} {l l' : List (Point K)} : e.Parts l l' ↔ e.Parts l' l := by
  constructor <;> exact fun h p hp q hq => by rw [mul_comm]; exact h q hq p hp

/-- Convex regions without common inner points are separated by an edge, and those without common points strictly. -/
theorem separated {c d : Contour K} (sc : c.Simple) (sd : d.Simple) (vc : c.Convex) (vd : d.Convex) :
    ((∀ p, p ∈ c.interior → p ∉ d.interior) →
      ∃ e ∈ c.edgeList ++ d.edgeList, e.Parts c.vertices d.vertices) ∧
    ((∀ p, p ∈ c.exterior ∨ p ∈ d.exterior) →
      (∃ e ∈ c.edgeList, e.Parts c.vertices d.vertices ∧ e.Clear d.vertices) ∨
      (∃ e ∈ d.edgeList, e.Parts d.vertices c.vertices ∧ e.Clear c.vertices)) := by
  obtain ⟨σ, hσ, k⟩ := convex_side vc
  obtain ⟨τ, hτ, k'⟩ := convex_side vd
  have lc := fun p => convex_locates sc hσ k p
  have ld := fun p => convex_locates sd hτ k' p
  obtain ⟨x, hx⟩ := sc.interior_nonempty
  obtain ⟨y, hy⟩ := sd.interior_nonempty
  have out : ∀ {b : Contour K}, b.Simple → ∀ v ∈ b.vertices, v ∉ b.exterior :=
    fun sb v hv k => sb.split.be v (Contour.vertex_mem_pts hv) k
  constructor
  · intro no
    rcases separate pos_combination ⟨x, (lc x).1.mp hx⟩ ⟨y, (ld y).1.mp hy⟩
        (fun p h1 h2 => no p ((lc p).1.mpr h1) ((ld p).1.mpr h2)) with ⟨e, he, h⟩ | ⟨e, he, h⟩
    · refine ⟨e, by simp [he], parts_comm.mpr ((parts_side sd hτ (sd.nondegenerate he) (k' e he) _).1.mpr
        fun v hv => ?_)⟩
      by_contra hn
      push Not at hn
      obtain ⟨p, hp, hp'⟩ := near_vertex sc vc hv hn
      exact h p ((lc p).1.mp hp) hp'
    · refine ⟨e, by simp [he], (parts_side sc hσ (sc.nondegenerate he) (k e he) _).1.mpr fun v hv => ?_⟩
      by_contra hn
      push Not at hn
      obtain ⟨p, hp, hp'⟩ := near_vertex sd vd hv hn
      exact h p ((ld p).1.mp hp) hp'
  · intro no
    have ic : ∀ p, p ∉ c.exterior ↔ ∀ e ∈ c.edgeList, 0 ≤ sideOf σ e p := fun p => by
      rw [(lc p).2.2]
      push Not
      rfl
    have id : ∀ p, p ∉ d.exterior ↔ ∀ e ∈ d.edgeList, 0 ≤ sideOf τ e p := fun p => by
      rw [(ld p).2.2]
      push Not
      rfl
    rcases separate nonneg_combination ⟨x, (ic x).mp (Contour.not_both hx)⟩ ⟨y, (id y).mp (Contour.not_both hy)⟩
        (fun p h1 h2 => (no p).elim ((ic p).mpr h1) ((id p).mpr h2)) with ⟨e, he, h⟩ | ⟨e, he, h⟩
    · right
      refine ⟨e, he, (parts_side sd hτ (sd.nondegenerate he) (k' e he) _).2.mpr fun v hv => ?_⟩
      exact not_le.mp (h v ((ic v).mp (out sc v hv)))
    · left
      refine ⟨e, he, (parts_side sc hσ (sc.nondegenerate he) (k e he) _).2.mpr fun v hv => ?_⟩
      exact not_le.mp (h v ((id v).mp (out sd v hv)))

/-- Points of different sides of a line have a point of the line between them. -/
theorem exists_between {s : Segment K} (hs : s.Nondegenerate) {p q : Point K}
    (h : cross s.start s.finish p * cross s.start s.finish q ≤ 0) :
    ∃ u, lerp s.start s.finish u ∈ (⟨p, q⟩ : Segment K).pts := by
  set a := cross s.start s.finish p with ha
  set b := cross s.start s.finish q with hb
  have key : ∃ t, 0 ≤ t ∧ t ≤ 1 ∧ (1 - t) * a + t * b = 0 := by
    rcases eq_or_ne a 0 with h0 | h0
    · exact ⟨0, le_rfl, zero_le_one, by rw [h0]; ring⟩
    have d : a - b ≠ 0 := fun e => by
      rw [← sub_eq_zero.mp e] at h
      exact absurd h (not_le.mpr (mul_self_pos.mpr h0))
    have e1 : a / (a - b) * (a - b) = a := div_mul_cancel₀ a d
    have e2 : 0 < (a - b) * (a - b) := mul_self_pos.mpr d
    have f1 : a / (a - b) * ((a - b) * (a - b)) = a * (a - b) := by rw [← mul_assoc, e1]
    have f2 : (1 - a / (a - b)) * ((a - b) * (a - b)) = -b * (a - b) := by
      rw [sub_mul, f1]
      ring
    refine ⟨a / (a - b), ?_, ?_, by linear_combination -e1⟩
    · by_contra hn
      push Not at hn
      have := mul_neg_of_neg_of_pos hn e2
      nlinarith [mul_self_nonneg a]
    · by_contra hn
      push Not at hn
      have := mul_neg_of_neg_of_pos (sub_neg.mpr hn) e2
      nlinarith [mul_self_nonneg b]
  obtain ⟨t, t0, t1, ht⟩ := key
  obtain ⟨u, hu⟩ := exists_lerp_of_cross_eq_zero (p := lerp p q t) hs (by rw [cross_lerp, ← ha, ← hb]; linear_combination ht)
  exact ⟨u, t, t0, t1, hu.symm⟩

/-- Which segments have no inner points of a convex region, and which have no points of it. -/
theorem beside {c : Contour K} (sc : c.Simple) (vc : c.Convex) {s : Segment K} (hs : s.Nondegenerate) :
    (s.LiesBeside c ↔ ∀ p ∈ s.pts, p ∉ c.interior) ∧ (s.LiesAway c ↔ ∀ p ∈ s.pts, p ∈ c.exterior) := by
  obtain ⟨σ, hσ, k⟩ := convex_side vc
  have lc := fun p => convex_locates sc hσ k p
  have ic : ∀ p, p ∉ c.exterior ↔ ∀ e ∈ c.edgeList, 0 ≤ sideOf σ e p := fun p => by
    rw [(lc p).2.2]
    push Not
    rfl
  have out : ∀ v ∈ c.vertices, v ∉ c.exterior := fun v hv k => sc.split.be v (Contour.vertex_mem_pts hv) k
  have conv := fun {s : Segment K} => convex_segment sc vc (s := s)
  have zero : ∀ (ρ : K) p, p ∈ s.pts → sideOf ρ s p = 0 := by
    rintro ρ p ⟨t, -, -, rfl⟩
    rw [sideOf, cross_lerp_self, mul_zero]
  refine ⟨⟨?_, fun no => ?_⟩, ⟨?_, fun no => ?_⟩⟩
  · rintro (h | ⟨e, he, h⟩) p hp hi
    · obtain ⟨v, hv, h0⟩ := exists_off sc hs
      have k' : ∀ w ∈ c.vertices, 0 ≤ sideOf (cross s.start s.finish v) s w := fun w hw => h v hv w hw
      simp only [sideOf_linear] at k'
      have := sc.linear_interior (sideOf_slope h0 hs) k' hi
      rw [← sideOf_linear, zero _ p hp] at this
      exact lt_irrefl _ this
    · have h := (parts_side sc hσ (sc.nondegenerate he) (k e he) _).1.mp h
      obtain ⟨t, t0, t1, rfl⟩ := hp
      have := (lc _).1.mp hi e he
      rw [sideOf_lerp] at this
      have h1 := mul_nonneg (sub_nonneg.mpr t1) (neg_nonneg.mpr (h s.start (by simp)))
      have h2 := mul_nonneg t0 (neg_nonneg.mpr (h s.finish (by simp)))
      linarith
  · by_cases h : ∀ v ∈ c.vertices, ∀ w ∈ c.vertices, 0 ≤ cross s.start s.finish v * cross s.start s.finish w
    · exact .inl h
    right
    push Not at h
    obtain ⟨v, hv, w, hw, hvw⟩ := h
    have ex : ∀ {v}, v ∈ c.vertices → cross s.start s.finish v ≠ 0 →
        ∃ p ∈ c.interior, 0 < cross s.start s.finish v * cross s.start s.finish p := fun {v} hv h0 =>
      near_vertex sc vc hv (τ := cross s.start s.finish v) (e := s) (mul_self_pos.mpr h0)
    obtain ⟨p, hp, hp'⟩ := ex hv fun e => by rw [e] at hvw; simp at hvw
    obtain ⟨q, hq, hq'⟩ := ex hw fun e => by rw [e] at hvw; simp at hvw
    obtain ⟨u, hu⟩ := exists_between hs (p := p) (q := q) (by
      by_contra hn
      push Not at hn
      have h1 := mul_pos (mul_pos hp' hq') hn
      have h2 := mul_nonneg (mul_self_nonneg (cross s.start s.finish p)) (mul_self_nonneg (cross s.start s.finish q))
      have h3 := mul_nonneg (neg_nonneg.mpr hvw.le) h2
      nlinarith)
    obtain ⟨e, he, h⟩ := separate_segment pos_combination (σ := σ) (A := c.edgeList) (s := s) (u := u)
      ((lc _).1.mp (conv.2.2 hp hq _ hu)) fun x hx hall => no x hx ((lc x).1.mpr hall)
    refine ⟨e, he, (parts_side sc hσ (sc.nondegenerate he) (k e he) _).1.mpr fun q hq => ?_⟩
    simp only [List.mem_cons, List.not_mem_nil, or_false] at hq
    rcases hq with rfl | rfl
    · exact not_lt.mp (h _ s.start_mem)
    · exact not_lt.mp (h _ s.finish_mem)
  · rintro (h | ⟨e, he, h⟩) p hp
    · obtain ⟨v, hv, h0⟩ := exists_off sc hs
      by_contra hn
      refine hn (sc.exterior_of_linear (sideOf_slope h0 hs) (d := cross s.start s.finish v *
        (s.start.x * (s.finish.y - s.start.y) - s.start.y * (s.finish.x - s.start.x))) (fun q hq => ?_))
      rw [← sideOf_linear, ← sideOf_linear, zero _ p hp]
      obtain ⟨f, hf, t, t0, t1, rfl⟩ := hq
      rw [sideOf_lerp]
      exact pos_combination _ _ t (h v hv _ (Contour.start_mem_vertices hf))
        (h v hv _ (Contour.finish_mem_vertices hf)) t0 t1
    · have h := (parts_side sc hσ (sc.nondegenerate he) (k e he) _).2.mp h
      obtain ⟨t, t0, t1, rfl⟩ := hp
      refine (lc _).2.2.mpr ⟨e, he, ?_⟩
      rw [sideOf_lerp]
      have := pos_combination _ _ t (neg_pos.mpr (h s.start (by simp))) (neg_pos.mpr (h s.finish (by simp))) t0 t1
      linarith
  · by_cases h : ∀ v ∈ c.vertices, ∀ w ∈ c.vertices, 0 < cross s.start s.finish v * cross s.start s.finish w
    · exact .inl h
    right
    push Not at h
    obtain ⟨v, hv, w, hw, hvw⟩ := h
    obtain ⟨u, hu⟩ := exists_between hs hvw
    obtain ⟨e, he, h⟩ := separate_segment nonneg_combination (σ := σ) (A := c.edgeList) (s := s) (u := u)
      ((ic _).mp (conv.1 (out v hv) (out w hw) _ hu)) fun x hx hall => (ic x).mpr hall (no x hx)
    refine ⟨e, he, (parts_side sc hσ (sc.nondegenerate he) (k e he) _).2.mpr fun q hq => ?_⟩
    simp only [List.mem_cons, List.not_mem_nil, or_false] at hq
    rcases hq with rfl | rfl
    · exact not_le.mp (h _ s.start_mem)
    · exact not_le.mp (h _ s.finish_mem)

section

variable {context : Context K} (hc : context.Exact)

include hc

omit hc [IsStrictOrderedRing K] in
theorem areal_apart {l l' : Point K → Location} {r : Relation} (h : ArealLocations l l' r) :
    (r ∈ [Relation.disjoint, .touch] → ∀ p, l p = .interior → l' p ≠ .interior) ∧
    (r = .disjoint → ∀ p, l p = .exterior ∨ l' p = .exterior) := by
  have cov : ∀ p, l p = .interior ∨ l p = .boundary ∨ l p = .exterior := fun p => by cases l p <;> simp
  have cov' : ∀ p, l' p = .interior ∨ l' p = .boundary ∨ l' p = .exterior := fun p => by cases l' p <;> simp
  cases r <;> simp only [ArealLocations] at h <;>
    simp only [List.mem_cons, List.not_mem_nil, or_false, reduceCtorEq, or_true, false_imp_iff, forall_const, and_true] <;> grind

/-- C68: convex regions have no common inner points iff an edge of one of them separates their vertices, and have no
common points at all iff moreover the other one has no vertices on the line of the edge. -/
theorem C68_regions {c d : Contour K} (sc : c.Simple) (sd : d.Simple) (vc : c.Convex) (vd : d.Convex) :
    ((∃ r ∈ [Relation.disjoint, .touch], planar.regionInRegion c d context = .ok r) ↔
      ∃ e ∈ c.edgeList ++ d.edgeList, e.Parts c.vertices d.vertices) ∧
    (planar.regionInRegion c d context = .ok .disjoint ↔
      (∃ e ∈ c.edgeList, e.Parts c.vertices d.vertices ∧ e.Clear d.vertices) ∨
      (∃ e ∈ d.edgeList, e.Parts d.vertices c.vertices ∧ e.Clear c.vertices)) := by
  obtain ⟨s1, s2⟩ := separated sc sd vc vd
  obtain ⟨σ, hσ, k⟩ := convex_side vc
  obtain ⟨τ, hτ, k'⟩ := convex_side vd
  have nc : (Area.region c).nodes = c.vertices := by simp [Area.nodes, Area.borders]
  have nd : (Area.region d).nodes = d.vertices := by simp [Area.nodes, Area.borders]
  have lc := region_located hc sc
  have ld := region_located hc sd
  have fwd := fun r (hr : planar.regionInRegion c d context = .ok r) =>
    areal_apart ((C54_areas hc (a := .region c) (b := .region d) sc sd trivial r).mp hr)
  simp only [Area.locate, ne_eq, lc.interior, ld.interior, lc.exterior, ld.exterior] at fwd
  -- an edge of the first region
  have b1 : ∀ e ∈ c.edgeList, e.Parts c.vertices d.vertices →
      (∃ r ∈ [Relation.disjoint, .touch], planar.regionInRegion c d context = .ok r) ∧
      (e.Clear d.vertices → planar.regionInRegion c d context = .ok .disjoint) := by
    intro e he h
    have ps := parts_side sc hσ (sc.nondegenerate he) (k e he) d.vertices
    have key := C63_areas hc (sideOf_slope hσ (sc.nondegenerate he)) (a := .region c) (b := .region d) sc sd trivial
      (fun p hp => by rw [← sideOf_linear]; exact k e he p (nc ▸ hp))
      (fun p hp => by rw [← sideOf_linear]; exact ps.1.mp h p (nd ▸ hp))
    refine ⟨key.1, fun h' => key.2 (.inr fun p hp => ?_)⟩
    rw [← sideOf_linear]
    exact ps.2.mp ⟨h, h'⟩ p (nd ▸ hp)
  have b2 : ∀ e ∈ d.edgeList, e.Parts d.vertices c.vertices →
      (∃ r ∈ [Relation.disjoint, .touch], planar.regionInRegion c d context = .ok r) ∧
      (e.Clear c.vertices → planar.regionInRegion c d context = .ok .disjoint) := by
    intro e he h
    have ps := parts_side sd hτ (sd.nondegenerate he) (k' e he) c.vertices
    have neg : ∀ p, sideOf (-τ) e p = -sideOf τ e p := fun p => by simp [sideOf]
    have key := C63_areas hc (sideOf_slope (neg_ne_zero.mpr hτ) (sd.nondegenerate he)) (a := .region c)
      (b := .region d) sc sd trivial
      (fun p hp => by rw [← sideOf_linear, neg]; exact neg_nonneg.mpr (ps.1.mp h p (nc ▸ hp)))
      (fun p hp => by rw [← sideOf_linear, neg]; exact neg_nonpos.mpr (k' e he p (nd ▸ hp)))
    refine ⟨key.1, fun h' => key.2 (.inl fun p hp => ?_)⟩
    rw [← sideOf_linear, neg]
    exact neg_pos.mpr (ps.2.mp ⟨h, h'⟩ p (nc ▸ hp))
  constructor
  · constructor
    · rintro ⟨r, hr, h⟩
      exact s1 fun p hp => (fwd r h).1 hr p hp
    · rintro ⟨e, he, h⟩
      rcases List.mem_append.mp he with he | he
      · exact (b1 e he h).1
      · exact (b2 e he (parts_comm.mp h)).1
  · constructor
    · intro h
      exact s2 ((fwd _ h).2 rfl)
    · rintro (⟨e, he, h, h'⟩ | ⟨e, he, h, h'⟩)
      · exact (b1 e he h).2 h'
      · exact (b2 e he h).2 h'

omit hc in
theorem line_edges (l : Line K) (p : Point K) : p ∈ linePts l ↔ ∃ s ∈ l.edges, p ∈ s.pts := by
  rcases l with l | l | l
  · simp [linePts, Line.edges]
  · rfl
  · rfl

omit hc [IsStrictOrderedRing K] in
theorem linear_apart {l l' : Point K → Location} {r : Relation} (h : LinearLocations l l' r)
    (ne : ∃ p, l p = .boundary) :
    (r ∈ [Relation.disjoint, .touch, .component] ↔ ∀ p, l p = .boundary → l' p ≠ .interior) ∧
    (r = .disjoint ↔ ∀ p, l p = .boundary → l' p = .exterior) := by
  obtain ⟨z, hz⟩ := ne
  cases r <;> simp only [LinearLocations] at h <;>
    simp only [List.mem_cons, List.not_mem_nil, or_false, reduceCtorEq, or_true, true_iff, false_iff] <;> grind

/-- C68: a linear geometry has no inner points of a convex region iff each of its segments has all vertices of the
region on one side or is separated by an edge of the region, and has no points of it iff it does so strictly. -/
theorem C68_line {c : Contour K} (sc : c.Simple) (vc : c.Convex) {l : Line K} (vl : l.Valid)
    (hl : l.Suits (.region c)) :
    ((∃ r ∈ [Relation.disjoint, .touch, .component], l.relate context (.region c) = .ok r) ↔
      ∀ s ∈ l.edges, s.LiesBeside c) ∧
    (l.relate context (.region c) = .ok .disjoint ↔ ∀ s ∈ l.edges, s.LiesAway c) := by
  obtain ⟨r, hr⟩ := line_relate_total hc (b := .region c) vl sc hl
  have hr' := (C54_lines hc (b := .region c) vl sc hl r).mp hr
  obtain ⟨k1, k2⟩ := linear_apart hr' (line_inhabited hc vl _ (by simp))
  have lc := region_located hc sc
  have nd : ∀ s ∈ l.edges, s.Nondegenerate := by
    rcases l with l | l | l
    · have vl : l.Nondegenerate := vl
      simpa [Line.edges] using vl
    · exact vl.1.1
    · exact fun s hs => vl.nondegenerate hs
  rw [hr]
  simp only [Except.ok.injEq, exists_eq_right', k1, k2, Area.locate, line_located hc, ne_eq, lc.interior, lc.exterior,
    line_edges]
  refine ⟨⟨fun h s hs => (beside sc vc (nd s hs)).1.mpr fun p hp => h p ⟨s, hs, hp⟩, ?_⟩,
    ⟨fun h s hs => (beside sc vc (nd s hs)).2.mpr fun p hp => h p ⟨s, hs, hp⟩, ?_⟩⟩
  · rintro h p ⟨s, hs, hp⟩
    exact (beside sc vc (nd s hs)).1.mp (h s hs) p hp
  · rintro h p ⟨s, hs, hp⟩
    exact (beside sc vc (nd s hs)).2.mp (h s hs) p hp

end

/-! ### the hypotheses can be met -/

/-- A triangle whose hypotenuse touches a corner of `sameQ`; only this edge separates the regions. -/
def cornerT : Contour ℚ := ⟨[⟨12, 4⟩, ⟨12, 12⟩, ⟨4, 12⟩]⟩

theorem cornerT_ok : cornerT.Simple ∧ cornerT.Convex :=
  ⟨Contour.simple_of_check (by decide +kernel), .inl (by unfold Contour.ConvexLeft; decide +kernel)⟩

instance (e : Segment ℚ) (l l' : List (Point ℚ)) : Decidable (e.Parts l l') := by
  unfold Segment.Parts; infer_instance

instance (e : Segment ℚ) (l : List (Point ℚ)) : Decidable (e.Clear l) := by
  unfold Segment.Clear; infer_instance

instance (s : Segment ℚ) (c : Contour ℚ) : Decidable (s.LiesBeside c) := by
  unfold Segment.LiesBeside; infer_instance

instance (s : Segment ℚ) (c : Contour ℚ) : Decidable (s.LiesAway c) := by
  unfold Segment.LiesAway; infer_instance

/-- C68 applies to regions which touch, are disjoint, and have common inner points, and to contours. -/
theorem C68_example :
    ((∃ r ∈ [Relation.disjoint, .touch], planar.regionInRegion sameQ cornerT reference.context = .ok r) ∧
      planar.regionInRegion sameQ cornerT reference.context ≠ .ok .disjoint) ∧
    planar.regionInRegion sameQ sameU' reference.context = .ok .disjoint ∧
    (¬ ∃ r ∈ [Relation.disjoint, .touch], planar.regionInRegion convexH sameQ reference.context = .ok r) ∧
    ((∃ r ∈ [Relation.disjoint, .touch, .component],
        (Line.contour cornerT).relate reference.context (.region sameQ) = .ok r) ∧
      (Line.contour cornerT).relate reference.context (.region sameQ) ≠ .ok .disjoint) := by
  have q := same_simple.1
  have qc : sameQ.Convex := .inl sameQ_convex
  have h1 := C68_regions reference.context_exact q cornerT_ok.1 qc cornerT_ok.2
  have h2 := C68_regions reference.context_exact q convex_ok.2.2.1 qc (.inr sameU'_convex)
  have h3 := C68_regions reference.context_exact convex_ok.2.1 q convex_ok.2.2.2 qc
  have h4 := C68_line reference.context_exact q qc (l := .contour cornerT) cornerT_ok.1 trivial
  rw [h1.1, Ne, h1.2, h2.2, h3.1, h4.1, Ne, h4.2]
  refine ⟨⟨?_, ?_⟩, ?_, ?_, ?_, ?_⟩ <;> decide +kernel

end Orient.Props
