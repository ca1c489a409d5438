import Verif.Spec.Convex
import Verif.Lemmas.Contours
import Verif.Lemmas.Areal

/-! # Points of convex regions -/

set_option linter.unusedSectionVars false

namespace Orient

variable {K : Type} [Field K] [LinearOrder K] [IsStrictOrderedRing K]

/-- A way which starts outside of a finite union of segments stays outside for a while. -/
theorem exists_clear {p a : Point K} (h : p ≠ a) : ∀ (l : List (Segment K)), p ∉ segsPts l →
    ∃ e, 0 < e ∧ e ≤ 1 ∧ ∀ u, 0 ≤ u → u ≤ e → lerp p a u ∉ segsPts l
  | [], _ => ⟨1, one_pos, le_rfl, by rintro u - - ⟨t, ht, -⟩; simp at ht⟩
  | t :: l, hp => by
    obtain ⟨e, e0, e1, k⟩ := exists_clear h l fun ⟨s, hs, hm⟩ => hp ⟨s, by simp [hs], hm⟩
    have ht : p ∉ t.pts := fun hm => hp ⟨t, by simp, hm⟩
    rcases germ_dichotomy h t with ⟨d, hd, h'⟩ | ⟨d, hd, h'⟩
    · refine ⟨min d e, lt_min hd e0, (min_le_right _ _).trans e1, fun u u0 u1 => ?_⟩
      rintro ⟨s, hs, hm⟩
      rcases List.mem_cons.mp hs with rfl | hs
      · rcases u0.eq_or_lt with rfl | u0
        · rw [lerp_zero] at hm
          exact ht hm
        · exact h' u u0 (u1.trans (min_le_left _ _)) hm
      · exact k u u0 (u1.trans (min_le_right _ _)) ⟨s, hs, hm⟩
    · have := h' 0 le_rfl hd.le
      rw [lerp_zero] at this
      exact absurd this ht

theorem lerp_pts {p a : Point K} {e : K} (e0 : 0 ≤ e) {z : Point K} (hz : z ∈ (⟨p, lerp p a e⟩ : Segment K).pts) :
    ∃ u, 0 ≤ u ∧ u ≤ e ∧ z = lerp p a u := by
  obtain ⟨t, t0, t1, rfl⟩ := hz
  refine ⟨t * e, mul_nonneg t0 e0, mul_le_of_le_one_left e0 t1, ?_⟩
  simp only [lerp, Point.mk.injEq]
  constructor <;> ring

/-- The side of an edge, with the sign `σ`. -/
def sideOf (σ : K) (e : Segment K) (p : Point K) : K := σ * cross e.start e.finish p

theorem sideOf_lerp (σ : K) (e : Segment K) (p a : Point K) (t : K) :
    sideOf σ e (lerp p a t) = (1 - t) * sideOf σ e p + t * sideOf σ e a := by
  simp only [sideOf, cross, lerp]
  ring

variable {c : Contour K} {σ : K}

theorem side_of_pts (h : ∀ e ∈ c.edgeList, ∀ v ∈ c.vertices, 0 ≤ sideOf σ e v) {p : Point K} (hp : p ∈ c.pts)
    {e : Segment K} (he : e ∈ c.edgeList) : 0 ≤ sideOf σ e p := by
  obtain ⟨f, hf, t, t0, t1, rfl⟩ := hp
  rw [sideOf_lerp]
  have h1 := h e he _ (Contour.start_mem_vertices hf)
  have h2 := h e he _ (Contour.finish_mem_vertices hf)
  have := mul_nonneg (sub_nonneg.mpr t1) h1
  have := mul_nonneg t0 h2
  linarith

theorem zero_of_pts {p : Point K} (hp : p ∈ c.pts) : ∃ e ∈ c.edgeList, sideOf σ e p = 0 := by
  obtain ⟨f, hf, t, t0, t1, rfl⟩ := hp
  refine ⟨f, hf, ?_⟩
  simp only [sideOf, cross_lerp_self, mul_zero]

/-- There are points outside of the contour in every direction. -/
theorem Contour.Simple.exists_outside (hs : c.Simple) (p n : Point K) (hn : n ≠ ⟨0, 0⟩) :
    ∃ t, 0 ≤ t ∧ (⟨p.x + t * n.x, p.y + t * n.y⟩ : Point K) ∈ c.exterior := by
  have box := (reference.context_exact.contourBox c hs.ne_nil).interior
  set b := (reference.context : Context K).contourBox c
  have key : ∀ x, x ∉ c.interior ∪ c.pts → x ∈ c.exterior := fun x hn => by
    rcases Contour.cover (c := c) fun h => hn (.inr h) with h | h
    · exact absurd (.inl h) hn
    · exact h
  by_contra hall
  push Not at hall
  have hin : ∀ t, 0 ≤ t → (⟨p.x + t * n.x, p.y + t * n.y⟩ : Point K) ∈ c.interior ∪ c.pts := by
    intro t t0
    by_contra h
    exact hall t t0 (key _ h)
  have lin : ∀ {a m lo hi : K}, m ≠ 0 → ¬ ∀ t, 0 ≤ t → lo ≤ a + t * m ∧ a + t * m ≤ hi := by
    intro a m lo hi hm h
    have h0 := h 0 le_rfl
    rcases lt_or_gt_of_ne hm with hm | hm
    · have := h ((lo - a - 1) / m) (div_nonneg_of_nonpos (by linarith [h0.1]) hm.le)
      rw [div_mul_cancel₀ _ hm.ne] at this
      linarith [this.1]
    · have := h ((hi - a + 1) / m) (div_nonneg (by linarith [h0.2]) hm.le)
      rw [div_mul_cancel₀ _ hm.ne'] at this
      linarith [this.2]
  by_cases hx : n.x = 0
  · have hy : n.y ≠ 0 := fun hy => hn (by cases n; simp_all)
    exact lin hy fun t t0 => ⟨box.minY_le _ (hin t t0), box.le_maxY _ (hin t t0)⟩
  · exact lin hx fun t t0 => ⟨box.minX_le _ (hin t t0), box.le_maxX _ (hin t t0)⟩

/-! ### half-planes -/

section

variable {a b d : K}

theorem linear_lerp (p q : Point K) (t : K) :
    linear a b d (lerp p q t) = (1 - t) * linear a b d p + t * linear a b d q := by
  simp only [linear, lerp]
  ring

theorem linear_pts (h : ∀ v ∈ c.vertices, 0 ≤ linear a b d v) {p : Point K} (hp : p ∈ c.pts) : 0 ≤ linear a b d p := by
  obtain ⟨f, hf, t, t0, t1, rfl⟩ := hp
  rw [linear_lerp]
  have h1 := h _ (Contour.start_mem_vertices hf)
  have h2 := h _ (Contour.finish_mem_vertices hf)
  have := mul_nonneg (sub_nonneg.mpr t1) h1
  have := mul_nonneg t0 h2
  linarith

/-- A point is outside of a contour which has no points in a half-plane around the point. -/
theorem Contour.Simple.exterior_of_linear (hs : c.Simple) (hn : a ≠ 0 ∨ b ≠ 0) {p : Point K}
    (h : ∀ q ∈ c.pts, linear a b d p < linear a b d q) : p ∈ c.exterior := by
  have n0 : (⟨-a, -b⟩ : Point K) ≠ ⟨0, 0⟩ := by
    rw [Ne, Point.mk.injEq]
    rintro ⟨h1, h2⟩
    rcases hn with hn | hn
    · exact hn (neg_eq_zero.mp h1)
    · exact hn (neg_eq_zero.mp h2)
  obtain ⟨t, t0, ht⟩ := hs.exists_outside p _ n0
  have key : linear a b d ⟨p.x + t * -a, p.y + t * -b⟩ = linear a b d p - t * (a * a + b * b) := by
    simp only [linear]
    ring
  have off : ∀ {x}, linear a b d x ≤ linear a b d p → x ∉ c.pts := fun hx hm => not_lt.mpr hx (h _ hm)
  have nn := mul_nonneg t0 (add_nonneg (mul_self_nonneg a) (mul_self_nonneg b))
  refine (Contour.exterior_iff_of_joined (.single fun z hz => off ?_) (off le_rfl) (off (by rw [key]; linarith))).mpr ht
  obtain ⟨u, u0, u1, rfl⟩ := hz
  rw [linear_lerp, key]
  have := mul_nonneg u0 nn
  simp only
  linarith

/-- Inner points of a contour with vertices in a half-plane are in the half-plane, away from its line. -/
theorem Contour.Simple.linear_interior (hs : c.Simple) (hn : a ≠ 0 ∨ b ≠ 0)
    (h : ∀ v ∈ c.vertices, 0 ≤ linear a b d v) {p : Point K} (hp : p ∈ c.interior) : 0 < linear a b d p := by
  have ext : ∀ {q}, linear a b d q < 0 → q ∈ c.exterior := fun hq =>
    hs.exterior_of_linear (d := d) hn fun x hx => hq.trans_le (linear_pts h hx)
  by_contra hle
  push Not at hle
  rcases hle.lt_or_eq with hlt | h0
  · exact Contour.not_both hp (ext hlt)
  have pos : 0 < a * a + b * b := by
    rcases hn with hn | hn
    · linarith [mul_self_pos.mpr hn, mul_self_nonneg b]
    · linarith [mul_self_pos.mpr hn, mul_self_nonneg a]
  have key : linear a b d ⟨p.x - a, p.y - b⟩ = -(a * a + b * b) := by
    have : linear a b d ⟨p.x - a, p.y - b⟩ = linear a b d p - (a * a + b * b) := by
      simp only [linear]
      ring
    rw [this, h0, zero_sub]
  have ne : p ≠ ⟨p.x - a, p.y - b⟩ := by
    intro e
    rw [← e, h0] at key
    linarith
  obtain ⟨u, u0, u1, hu⟩ := exists_clear ne c.edgeList (hs.split.ib p hp)
  have hq : lerp p ⟨p.x - a, p.y - b⟩ u ∈ c.interior :=
    (Contour.interior_iff_of_joined (.single fun z hz => by
      obtain ⟨w, w0, w1, rfl⟩ := lerp_pts u0.le hz
      exact hu w w0 w1)).mp hp
  refine Contour.not_both hq (ext ?_)
  rw [linear_lerp, h0, key]
  linarith [mul_pos u0 pos]

end

/-! ### convex contours -/

variable (hs : c.Simple) (hσ : σ ≠ 0) (h : ∀ e ∈ c.edgeList, ∀ v ∈ c.vertices, 0 ≤ sideOf σ e v)

include hs hσ h

/-- The direction away from an edge. -/
theorem exists_away {e : Segment K} (he : e ∈ c.edgeList) : ∃ n : Point K, n ≠ ⟨0, 0⟩ ∧
    ∀ p t, 0 ≤ t → sideOf σ e ⟨p.x + t * n.x, p.y + t * n.y⟩ ≤ sideOf σ e p ∧
      (0 < t → sideOf σ e ⟨p.x + t * n.x, p.y + t * n.y⟩ < sideOf σ e p) := by
  have nd := hs.nondegenerate he
  have pos : 0 < (e.finish.x - e.start.x) * (e.finish.x - e.start.x) +
      (e.finish.y - e.start.y) * (e.finish.y - e.start.y) := by
    by_cases hx : e.finish.x - e.start.x = 0
    · have hy : e.finish.y - e.start.y ≠ 0 := fun hy => nd (by
        obtain ⟨⟨a, b⟩, ⟨c, d⟩⟩ := e
        simp only at hx hy ⊢
        rw [Point.mk.injEq]
        exact ⟨(sub_eq_zero.mp hx).symm, (sub_eq_zero.mp hy).symm⟩)
      nlinarith [mul_self_pos.mpr hy, mul_self_nonneg (e.finish.x - e.start.x)]
    · nlinarith [mul_self_pos.mpr hx, mul_self_nonneg (e.finish.y - e.start.y)]
  refine ⟨⟨σ * (e.finish.y - e.start.y), -σ * (e.finish.x - e.start.x)⟩, ?_, fun p t t0 => ?_⟩
  · intro hn
    rw [Point.mk.injEq] at hn
    have h1 := (mul_eq_zero.mp hn.1).resolve_left hσ
    have h2 := (mul_eq_zero.mp hn.2).resolve_left (neg_ne_zero.mpr hσ)
    rw [h1, h2] at pos
    simp at pos
  · have key : sideOf σ e ⟨p.x + t * (σ * (e.finish.y - e.start.y)), p.y + t * (-σ * (e.finish.x - e.start.x))⟩ =
        sideOf σ e p - t * (σ * σ * ((e.finish.x - e.start.x) * (e.finish.x - e.start.x) +
      (e.finish.y - e.start.y) * (e.finish.y - e.start.y))) := by
      simp only [sideOf, cross]
      ring
    have pos' := mul_pos (mul_self_pos.mpr hσ) pos
    rw [key]
    constructor
    · linarith [mul_nonneg t0 pos'.le]
    · intro t0
      linarith [mul_pos t0 pos']

theorem exterior_of_side {p : Point K} {e : Segment K} (he : e ∈ c.edgeList) (hp : sideOf σ e p < 0) :
    p ∈ c.exterior := by
  obtain ⟨n, hn, k⟩ := exists_away hs hσ h he
  obtain ⟨t, t0, ht⟩ := hs.exists_outside p n hn
  have off : ∀ {x}, sideOf σ e x < 0 → x ∉ c.pts := fun hx hm => not_le.mpr hx (side_of_pts h hm he)
  have hq := (k p t t0).1.trans_lt hp
  refine (Contour.exterior_iff_of_joined (.single fun z hz => off ?_) (off hp) (off hq)).mpr ht
  obtain ⟨u, u0, u1, rfl⟩ := hz
  rw [sideOf_lerp]
  rcases u0.eq_or_lt with rfl | u0
  · simpa using hp
  · have := mul_neg_of_pos_of_neg u0 hq
    have := mul_nonpos_of_nonneg_of_nonpos (sub_nonneg.mpr u1) hp.le
    linarith

theorem side_of_interior {p : Point K} (hp : p ∈ c.interior) {e : Segment K} (he : e ∈ c.edgeList) :
    0 < sideOf σ e p := by
  by_contra hn
  push Not at hn
  rcases hn.lt_or_eq with hn | hn
  · exact Contour.not_both hp (exterior_of_side hs hσ h he hn)
  obtain ⟨n, n0, k⟩ := exists_away hs hσ h he
  have ne : p ≠ ⟨p.x + 1 * n.x, p.y + 1 * n.y⟩ := by
    intro h
    have := (k p 1 zero_le_one).2 one_pos
    rw [← h] at this
    exact lt_irrefl _ this
  obtain ⟨u, u0, u1, hu⟩ := exists_clear ne c.edgeList (hs.split.ib p hp)
  have hq : lerp p ⟨p.x + 1 * n.x, p.y + 1 * n.y⟩ u ∈ c.interior :=
    (Contour.interior_iff_of_joined (.single fun z hz => by
      obtain ⟨w, w0, w1, rfl⟩ := lerp_pts u0.le hz
      exact hu w w0 w1)).mp hp
  refine Contour.not_both hq (exterior_of_side hs hσ h he ?_)
  rw [sideOf_lerp, hn]
  have := (k p 1 zero_le_one).2 one_pos
  rw [hn] at this
  linarith [mul_neg_of_pos_of_neg u0 this]

theorem interior_of_side {p : Point K} (hp : ∀ e ∈ c.edgeList, 0 < sideOf σ e p) : p ∈ c.interior := by
  obtain ⟨q, hq⟩ := hs.interior_nonempty
  refine (Contour.interior_iff_of_joined (.single fun z hz hm => ?_)).mpr hq
  obtain ⟨e, he, h0⟩ := zero_of_pts (σ := σ) hm
  obtain ⟨u, u0, u1, rfl⟩ := hz
  rw [sideOf_lerp] at h0
  have h1 := hp e he
  have h2 := side_of_interior hs hσ h hq he
  rcases u0.eq_or_lt with rfl | u0
  · simp at h0
    exact h1.ne' h0
  · have := mul_pos u0 h2
    have := mul_nonneg (sub_nonneg.mpr u1) h1.le
    simp only at h0
    linarith

theorem not_exterior_of_side {p : Point K} (hp : ∀ e ∈ c.edgeList, 0 ≤ sideOf σ e p) : p ∉ c.exterior := by
  intro hx
  have off := fun hm => hs.split.be p hm hx
  obtain ⟨q, hq⟩ := hs.interior_nonempty
  have ne : p ≠ q := by
    rintro rfl
    exact Contour.not_both hq hx
  obtain ⟨u, u0, u1, hu⟩ := exists_clear ne c.edgeList off
  refine Contour.not_both ?_ hx
  refine (Contour.interior_iff_of_joined (.single fun z hz => ?_)).mpr
    (interior_of_side hs hσ h (p := lerp p q u) fun e he => ?_)
  · obtain ⟨w, w0, w1, rfl⟩ := lerp_pts u0.le hz
    exact hu w w0 w1
  · rw [sideOf_lerp]
    have := mul_pos u0 (side_of_interior hs hσ h hq he)
    have := mul_nonneg (sub_nonneg.mpr u1) (hp e he)
    linarith

/-- Where a point is located with respect to a convex region. -/
theorem convex_locates (p : Point K) : (p ∈ c.interior ↔ ∀ e ∈ c.edgeList, 0 < sideOf σ e p) ∧
    (p ∈ c.pts ↔ (∀ e ∈ c.edgeList, 0 ≤ sideOf σ e p) ∧ ∃ e ∈ c.edgeList, sideOf σ e p = 0) ∧
    (p ∈ c.exterior ↔ ∃ e ∈ c.edgeList, sideOf σ e p < 0) := by
  have ex : p ∈ c.exterior ↔ ∃ e ∈ c.edgeList, sideOf σ e p < 0 := by
    constructor
    · intro hp
      by_contra hn
      push Not at hn
      exact not_exterior_of_side hs hσ h hn hp
    · rintro ⟨e, he, hp⟩
      exact exterior_of_side hs hσ h he hp
  refine ⟨⟨fun hp e he => side_of_interior hs hσ h hp he, interior_of_side hs hσ h⟩, ?_, ex⟩
  constructor
  · exact fun hp => ⟨fun e he => side_of_pts h hp he, zero_of_pts hp⟩
  · rintro ⟨h1, e, he, h2⟩
    rcases hs.split.cover p with k | k | k
    · exact absurd h2 (side_of_interior hs hσ h k he).ne'
    · exact k
    · exact absurd k (not_exterior_of_side hs hσ h h1)

end Orient
