import Verif.Lemmas.Germ
import Verif.Spec.Context
import Verif.Spec.Ways
import Verif.Model.EventsQueue

/-! Angles between directions at a point. -/

set_option linter.unusedSectionVars false

namespace Orient

variable {K : Type} [Field K] [LinearOrder K] [IsStrictOrderedRing K]

theorem SameRay.symm {p a b : Point K} (h : SameRay p a b) : SameRay p b a := by
  obtain ⟨k, hk, rfl⟩ := h
  refine ⟨1 / k, by positivity, ?_⟩
  have : k ≠ 0 := hk.ne'
  refine Point.ext ?_ ?_ <;> simp only [lerp] <;> field_simp <;> ring

theorem SameRay.trans {p a b c : Point K} (h : SameRay p a b) (h' : SameRay p b c) :
    SameRay p a c := by
  obtain ⟨k, hk, rfl⟩ := h
  obtain ⟨m, hm, rfl⟩ := h'
  refine ⟨k * m, by positivity, ?_⟩
  refine Point.ext ?_ ?_ <;> simp only [lerp] <;> ring

/-- Equal directions have common points. -/
theorem SameRay.nontrivial {p a b : Point K} (ha : a ≠ p) (h : SameRay p a b) :
    ((⟨p, a⟩ : Segment K).pts ∩ (⟨p, b⟩ : Segment K).pts).Nontrivial := by
  obtain ⟨k, hk, rfl⟩ := h
  by_cases h1 : k ≤ 1
  · refine ⟨p, ⟨Segment.start_mem _, Segment.start_mem _⟩, lerp p a k,
      ⟨⟨k, hk.le, h1, rfl⟩, Segment.finish_mem _⟩, fun e => ?_⟩
    have : lerp p a 0 = lerp p a k := by rw [lerp_zero]; exact e
    exact hk.ne (lerp_injective ha.symm this)
  · refine ⟨p, ⟨Segment.start_mem _, Segment.start_mem _⟩, a, ⟨Segment.finish_mem _, ?_⟩, ha.symm⟩
    refine ⟨1 / k, by positivity, ?_, ?_⟩
    · rw [div_le_one hk]; exact (not_le.mp h1).le
    · have : k ≠ 0 := hk.ne'
      refine Point.ext ?_ ?_ <;> simp only [lerp] <;> field_simp <;> ring

theorem sameRay_of_mem {p a b : Point K} (hb : b ≠ p) (h : b ∈ (⟨p, a⟩ : Segment K).pts) :
    SameRay p a b := by
  obtain ⟨t, t0, -, rfl⟩ := h
  refine ⟨t, lt_of_le_of_ne t0 fun e => hb ?_, rfl⟩
  rw [← e, lerp_zero]

/-- Common points mean equal directions. -/
theorem sameRay_of_nontrivial {p a b : Point K}
    (h : ((⟨p, a⟩ : Segment K).pts ∩ (⟨p, b⟩ : Segment K).pts).Nontrivial) : SameRay p a b := by
  obtain ⟨x, ⟨h1, h2⟩, y, ⟨h3, h4⟩, hne⟩ := h
  by_cases hx : x = p
  · have hy : y ≠ p := fun e => hne (hx.trans e.symm)
    exact (sameRay_of_mem hy h3).trans (sameRay_of_mem hy h4).symm
  · exact (sameRay_of_mem hx h1).trans (sameRay_of_mem hx h2).symm

/-- Collinear directions are equal or opposite. -/
theorem opposite_of_cross {p a b : Point K} (ha : a ≠ p) (hb : b ≠ p) (hc : cross p a b = 0)
    (hn : ¬ SameRay p a b) : ∃ k, 0 < k ∧ b = lerp p a (-k) := by
  obtain ⟨k, hk⟩ := exists_lerp_of_cross_eq_zero ha.symm hc
  rcases lt_trichotomy k 0 with h | h | h
  · exact ⟨-k, by linarith, by rw [neg_neg]; exact hk⟩
  · rw [h, lerp_zero] at hk; exact absurd hk hb
  · exact absurd ⟨k, h, hk⟩ hn

theorem cross_lerp_left (p a b : Point K) (k : K) : cross p (lerp p a k) b = k * cross p a b := by
  simp only [cross, lerp]; ring

theorem cross_lerp_right (p a b : Point K) (k : K) : cross p a (lerp p b k) = k * cross p a b := by
  simp only [cross, lerp]; ring

/-- The relation of the areas which four directions span. -/
theorem cross_pluecker (p a b u v : Point K) :
    cross p a b * cross p u v - cross p a u * cross p b v + cross p a v * cross p b u = 0 := by
  simp only [cross]; ring

/-- If `u` and `v` are on different sides of the directions `a` and `b`, then these are on different
sides of `u` and `v`. -/
theorem InAngle.exchange {p a b u v : Point K} (h : InAngle p a b u) (h' : InAngle p b a v) :
    InAngle p u v b ∧ InAngle p v u a := by
  unfold InAngle at *
  have e := cross_pluecker p a b u v
  rw [cross_swap p a b, cross_swap p a v] at h'
  rw [cross_swap p b u] at h
  rw [cross_swap p b u, cross_swap p a v, cross_swap p u v]
  set A := cross p a b
  set B := cross p u v
  set C := cross p a u
  set D := cross p b v
  set E := cross p a v
  set F := cross p b u
  constructor
  · by_cases hB : B < 0
    · rw [if_pos hB]
      by_contra hn
      push Not at hn
      split_ifs at h h' <;> grind
    · rw [if_neg hB]
      push Not at hB
      split_ifs at h h' with h1 h2 h2
      · linarith
      · rcases h with h | h
        · refine ⟨?_, h'.1⟩
          by_contra hF
          push Not at hF
          nlinarith [mul_pos h h'.1, mul_nonneg (by linarith : 0 ≤ F) h'.2.le, mul_nonneg hB (by linarith : 0 ≤ -A)]
        · exact ⟨h, h'.1⟩
      · refine ⟨h.2, ?_⟩
        rcases h' with h' | h'
        · exact h'
        · by_contra hD
          push Not at hD
          nlinarith [mul_pos h' h.2, mul_nonneg h.1.le (by linarith : 0 ≤ -D),
            mul_nonneg hB (by linarith : 0 ≤ A)]
      · exact ⟨h.2, h'.1⟩
  · by_cases hB : -B < 0
    · rw [if_pos hB]
      by_contra hn
      push Not at hn
      split_ifs at h h' <;> grind
    · rw [if_neg hB]
      push Not at hB
      split_ifs at h h' with h1 h2 h2
      · linarith
      · refine ⟨h'.2, ?_⟩
        rcases h with h | h
        · exact h
        · by_contra hC
          push Not at hC
          nlinarith [mul_pos h h'.2, mul_nonneg (by linarith : 0 ≤ -C) h'.1.le,
            mul_nonneg hB (by linarith : 0 ≤ -A)]
      · rcases h' with h' | h'
        · refine ⟨?_, h.1⟩
          by_contra hE
          push Not at hE
          nlinarith [mul_pos h.1 h', mul_nonneg h.2.le (by linarith : 0 ≤ E),
            mul_nonneg hB (by linarith : 0 ≤ A)]
        · exact ⟨h', h.1⟩
      · exact ⟨h'.2, h.1⟩

theorem CrossesAt.symm {S T : Set (Point K)} {p : Point K} (h : CrossesAt S T p) :
    CrossesAt T S p := by
  obtain ⟨a, b, u, v, ha, hb, hu, hv, h1, h2⟩ := h
  obtain ⟨k1, k2⟩ := h1.exchange h2
  exact ⟨u, v, b, a, hu, hv, hb, ha, k1, k2⟩

theorem sameRay_of_opposite {p a : Point K} {k m : K} (hk : 0 < k) (hm : 0 < m) :
    SameRay p (lerp p a (-k)) (lerp p a (-m)) := by
  have : k ≠ 0 := hk.ne'
  refine ⟨m / k, by positivity, ?_⟩
  refine Point.ext ?_ ?_ <;> simp only [lerp] <;> field_simp <;> ring

/-- Every direction other than two given ones is on one of the sides of them. -/
theorem inAngle_or {p a b t : Point K} (ha : a ≠ p) (hb : b ≠ p) (ht : t ≠ p)
    (hab : ¬ SameRay p a b) (hat : ¬ SameRay p a t) (hbt : ¬ SameRay p b t) :
    InAngle p a b t ∨ InAngle p b a t := by
  unfold InAngle
  rw [cross_swap p a b, cross_swap p a t, cross_swap p t b]
  rcases lt_trichotomy (cross p a b) 0 with h | h | h
  · rw [if_pos h, if_neg (by linarith)]
    by_cases hB : cross p a t = 0
    · obtain ⟨k, hk, rfl⟩ := opposite_of_cross ha ht hB hat
      left; right
      rw [cross_lerp_left]; nlinarith
    · by_cases hC : cross p b t = 0
      · obtain ⟨k, hk, rfl⟩ := opposite_of_cross hb ht hC hbt
        left; left
        rw [cross_lerp_right]; nlinarith
      · have hC' : cross p t b ≠ 0 := by rw [cross_swap p b t]; simpa using hC
        grind
  · obtain ⟨m, hm, rfl⟩ := opposite_of_cross ha hb h hab
    rw [h, if_neg (by simp), if_neg (by simp), cross_lerp_right, cross_swap p a t]
    have hB : cross p a t ≠ 0 := by
      intro hB
      obtain ⟨k, hk, rfl⟩ := opposite_of_cross ha ht hB hat
      exact hbt (sameRay_of_opposite hm hk)
    rcases lt_or_gt_of_ne hB with hB | hB
    · right; constructor <;> nlinarith
    · left; constructor <;> nlinarith
  · rw [if_neg (by linarith), if_pos (by linarith)]
    by_cases hB : cross p a t = 0
    · obtain ⟨k, hk, rfl⟩ := opposite_of_cross ha ht hB hat
      right; left
      rw [cross_lerp_left]; nlinarith
    · by_cases hC : cross p b t = 0
      · obtain ⟨k, hk, rfl⟩ := opposite_of_cross hb ht hC hbt
        right; right
        rw [cross_lerp_right]; nlinarith
      · have hC' : cross p t b ≠ 0 := by rw [cross_swap p b t]; simpa using hC
        grind

/-- A direction is on one side only. -/
theorem InAngle.not_swap {p a b t : Point K} (h : InAngle p a b t) : ¬ InAngle p b a t := by
  unfold InAngle at *
  rw [cross_swap p a b, cross_swap p a t, cross_swap p t b]
  intro h'
  split_ifs at h h' with h1 h2 h2
  · linarith
  · grind
  · grind
  · linarith [h.1, h'.2]

theorem InAngle.not_same {p a b t : Point K} (h : InAngle p a b t) :
    ¬ SameRay p a t ∧ ¬ SameRay p b t := by
  constructor
  · rintro ⟨k, hk, rfl⟩
    unfold InAngle at h
    rw [cross_lerp_right, cross_lerp_left, cross_same] at h
    split_ifs at h with h1
    · rcases h with h | h
      · simp at h
      · nlinarith
    · simp at h
  · rintro ⟨k, hk, rfl⟩
    unfold InAngle at h
    rw [cross_lerp_right, cross_lerp_left, cross_same] at h
    split_ifs at h with h1
    · rcases h with h | h
      · nlinarith
      · simp at h
    · simp at h

/-- Being on a side depends on the directions only. -/
theorem InAngle.congr {p a b t a' b' t' : Point K} (h : InAngle p a b t) (ha : SameRay p a a')
    (hb : SameRay p b b') (ht : SameRay p t t') : InAngle p a' b' t' := by
  obtain ⟨k, hk, rfl⟩ := ha
  obtain ⟨l, hl, rfl⟩ := hb
  obtain ⟨m, hm, rfl⟩ := ht
  unfold InAngle at *
  simp only [cross_lerp_right, cross_lerp_left]
  have e1 : l * (k * cross p a b) < 0 ↔ cross p a b < 0 := by
    constructor
    · intro h1
      by_contra h2
      push Not at h2
      nlinarith [mul_nonneg hl.le (mul_nonneg hk.le h2)]
    · intro h1
      nlinarith [mul_pos hl hk]
  have e2 : 0 < m * (k * cross p a t) ↔ 0 < cross p a t := by
    rw [mul_pos_iff_of_pos_left hm, mul_pos_iff_of_pos_left hk]
  have e3 : 0 < l * (m * cross p t b) ↔ 0 < cross p t b := by
    rw [mul_pos_iff_of_pos_left hl, mul_pos_iff_of_pos_left hm]
  simp only [e1, e2, e3]
  exact h

namespace eventsQueue

/-- `_point_in_angle` for directions other than those of the rays. -/
theorem pointInAngle_iff {context : Context K} (hc : context.Exact) {p a b t : Point K} (ha : a ≠ p)
    (hb : b ≠ p) (ht : t ≠ p) (hab : ¬ SameRay p a b) (hat : ¬ SameRay p a t)
    (hbt : ¬ SameRay p b t) :
    pointInAngle context t p a b (context.angleOrientation p a b) = true ↔
      if cross p a b < 0 then InAngle p b a t else InAngle p a b t := by
  have ccw := hc.counterclockwise
  have cw := hc.clockwise
  have col : ∀ v x y, context.angleOrientation v x y = .collinear ↔ cross v x y = 0 := by
    intro v x y
    have h1 := ccw v x y
    have h2 := cw v x y
    constructor
    · intro h
      rw [h] at h1 h2
      simp only [reduceCtorEq, false_iff, not_lt] at h1 h2
      exact le_antisymm h1 h2
    · intro h
      rw [h] at h1 h2
      simp only [lt_irrefl, iff_false] at h1 h2
      cases ho : context.angleOrientation v x y <;> simp_all
  have eC : cross b p t = cross p t b := cross_rotate' p t b
  unfold pointInAngle
  simp only [col, eC]
  by_cases hB : cross p a t = 0
  · obtain ⟨k, hk, rfl⟩ := opposite_of_cross ha ht hB hat
    rw [if_pos hB]
    have eC' : cross p (lerp p a (-k)) b = -k * cross p a b := cross_lerp_left ..
    unfold InAngle
    rw [cross_swap p a b, cross_swap p a (lerp p a (-k)), hB]
    have c2 := ccw b p (lerp p a (-k))
    have c3 := cw b p (lerp p a (-k))
    have d2 := ccw p a b
    have d3 := cw p a b
    rw [eC, eC'] at c2 c3
    rcases lt_trichotomy (cross p a b) 0 with h | h | h
    · have q1 := c2.mpr (by nlinarith)
      have q2 := d3.mpr h
      rw [q1, q2]
      simp [h, h.le, not_lt.mpr h.le]
    · exfalso
      obtain ⟨m, hm, rfl⟩ := opposite_of_cross ha hb h hab
      exact hbt (sameRay_of_opposite hm hk)
    · have q1 := c3.mpr (by nlinarith)
      have q2 := d2.mpr h
      rw [q1, q2]
      simp [h.le, not_lt.mpr h.le]
  · rw [if_neg hB]
    by_cases hC : cross p t b = 0
    · rw [if_pos hC]
      have hC' : cross p b t = 0 := by rw [cross_swap p t b, hC, neg_zero]
      obtain ⟨k, hk, rfl⟩ := opposite_of_cross hb ht hC' hbt
      have eB : cross p a (lerp p b (-k)) = -k * cross p a b := cross_lerp_right ..
      unfold InAngle
      rw [hC, hC', cross_swap p a b]
      have c2 := ccw p a (lerp p b (-k))
      have c3 := cw p a (lerp p b (-k))
      have d2 := ccw p a b
      have d3 := cw p a b
      rw [eB] at c2 c3
      rcases lt_trichotomy (cross p a b) 0 with h | h | h
      · have q1 := c2.mpr (by nlinarith)
        have q2 := d3.mpr h
        rw [q1, q2]
        simp [h, h.le, not_lt.mpr h.le]
      · exfalso
        rw [eB, h] at hB
        simp at hB
      · have q1 := c3.mpr (by nlinarith)
        have q2 := d2.mpr h
        rw [q1, q2]
        simp [h.le, not_lt.mpr h.le]
    · rw [if_neg hC]
      have b2 := ccw p a t
      have b3 := cw p a t
      have c2 := ccw b p t
      have c3 := cw b p t
      have d1 := col p a b
      have d2 := ccw p a b
      have d3 := cw p a b
      rw [eC] at c2 c3
      unfold InAngle
      rw [cross_swap p a b, cross_swap p t b, cross_swap p a t]
      generalize cross p a t = B at *
      generalize cross p t b = C at *
      generalize cross p a b = A at *
      cases h1 : context.angleOrientation p a t <;> cases h2 : context.angleOrientation b p t <;>
        cases h3 : context.angleOrientation p a b <;>
        simp only [h1, h2, h3, reduceCtorEq, false_iff, true_iff, not_lt] at b2 b3 c2 c3 d1 d2 d3 <;>
        grind

/-! ### the largest angle -/

theorem minBy_mem (key : Ev → K) (e : Ev) (l : List Ev) : minBy key e l ∈ e :: l := by
  induction l generalizing e with
  | nil => simp [minBy]
  | cons x l ih =>
    simp only [minBy]
    have := ih (if key x < key e then x else e)
    split_ifs at this ⊢ <;> grind

theorem minBy_le (key : Ev → K) (e : Ev) (l : List Ev) : ∀ x ∈ e :: l, key (minBy key e l) ≤ key x := by
  induction l generalizing e with
  | nil => simp [minBy]
  | cons x l ih =>
    simp only [minBy]
    have := ih (if key x < key e then x else e)
    split_ifs at this ⊢ with h <;> grind

theorem squared_pos {p a : Point K} (h : a ≠ p) :
    0 < (a.x - p.x) * (a.x - p.x) + (a.y - p.y) * (a.y - p.y) := by
  by_contra hn
  push Not at hn
  have hx := mul_self_nonneg (a.x - p.x)
  have hy := mul_self_nonneg (a.y - p.y)
  have ex : (a.x - p.x) * (a.x - p.x) = 0 := by linarith
  have ey : (a.y - p.y) * (a.y - p.y) = 0 := by linarith
  rw [mul_self_eq_zero, sub_eq_zero] at ex ey
  exact h (Point.ext ex ey)

section

variable {context : Context K} (hc : context.Exact) {s : State K} {p g : Point K} {e : Ev}

include hc

theorem signedSquaredCosine_same (he : s.evStart e = p) (hg : g ≠ p)
    (h : SameRay p g (s.evEnd e)) :
    signedSquaredCosine context s g e =
      (g.x - p.x) * (g.x - p.x) + (g.y - p.y) * (g.y - p.y) := by
  unfold signedSquaredCosine
  simp only [hc.dotProduct, hc.pointsSquaredDistance, he]
  obtain ⟨k, hk, e⟩ := h
  rw [e]
  have hs := squared_pos hg
  have e1 : (g.x - p.x) * ((lerp p g k).x - p.x) + (g.y - p.y) * ((lerp p g k).y - p.y)
      = k * ((g.x - p.x) * (g.x - p.x) + (g.y - p.y) * (g.y - p.y)) := by
    simp only [lerp]; ring
  have e2 : ((lerp p g k).x - p.x) * ((lerp p g k).x - p.x)
        + ((lerp p g k).y - p.y) * ((lerp p g k).y - p.y)
      = k * k * ((g.x - p.x) * (g.x - p.x) + (g.y - p.y) * (g.y - p.y)) := by
    simp only [lerp]; ring
  rw [e1, e2]
  set N := (g.x - p.x) * (g.x - p.x) + (g.y - p.y) * (g.y - p.y)
  rw [if_pos (mul_pos hk hs)]
  have h1 : k ≠ 0 := hk.ne'
  have h2 : N ≠ 0 := hs.ne'
  field_simp
  ring

theorem signedSquaredCosine_lt (he : s.evStart e = p) (hg : g ≠ p) (hn : s.evEnd e ≠ p)
    (h : ¬ SameRay p g (s.evEnd e)) :
    signedSquaredCosine context s g e <
      (g.x - p.x) * (g.x - p.x) + (g.y - p.y) * (g.y - p.y) := by
  unfold signedSquaredCosine
  simp only [hc.dotProduct, hc.pointsSquaredDistance, he]
  set d := s.evEnd e
  have hs := squared_pos hg
  have hd := squared_pos hn
  rw [div_lt_iff₀ hd]
  split_ifs with hdot
  · have hcr : cross p g d ≠ 0 := by
      intro h0
      obtain ⟨k, hk⟩ := exists_lerp_of_cross_eq_zero hg.symm h0
      refine h ⟨k, ?_, hk⟩
      rw [hk] at hdot
      simp only [lerp] at hdot
      by_contra hk0
      push Not at hk0
      have : (g.x - p.x) * (p.x + k * (g.x - p.x) - p.x) + (g.y - p.y) * (p.y + k * (g.y - p.y) - p.y)
        = k * ((g.x - p.x) * (g.x - p.x) + (g.y - p.y) * (g.y - p.y)) := by ring
      rw [this] at hdot
      nlinarith
    have := mul_self_pos.mpr hcr
    unfold cross at this
    nlinarith
  · nlinarith [mul_self_nonneg ((g.x - p.x) * (d.x - p.x) + (g.y - p.y) * (d.y - p.y)),
      mul_pos hs hd]

/-- The event of the largest angle to a direction has another direction, if any event has. -/
theorem minBy_not_same {e : Ev} {l : List Ev} (hst : ∀ x ∈ e :: l, s.evStart x = p)
    (hne : ∀ x ∈ e :: l, s.evEnd x ≠ p) (hg : g ≠ p)
    (h : ∃ x ∈ e :: l, ¬ SameRay p g (s.evEnd x)) :
    ¬ SameRay p g (s.evEnd (minBy (signedSquaredCosine context s g) e l)) := by
  intro hs
  obtain ⟨x, hx, hn⟩ := h
  have h1 := minBy_le (signedSquaredCosine context s g) e l x hx
  have hm := minBy_mem (signedSquaredCosine context s g) e l
  rw [signedSquaredCosine_same hc (hst _ hm) hg hs] at h1
  exact absurd (signedSquaredCosine_lt hc (hst x hx) hg (hne x hx) hn) (not_lt.mpr h1)

end

theorem allEqual_map {α β : Type} [DecidableEq β] (f : α → β) (l : List α) :
    allEqual (l.map f) = true ↔ ∀ x ∈ l, ∀ y ∈ l, f x = f y := by
  cases l with
  | nil => simp [allEqual]
  | cons a l =>
    simp only [List.map_cons, allEqual, List.all_eq_true, List.mem_map, decide_eq_true_eq]
    constructor
    · intro h x hx y hy
      have : ∀ z ∈ a :: l, f a = f z := by
        intro z hz
        rcases List.mem_cons.mp hz with rfl | hz
        · rfl
        · exact h _ ⟨z, hz, rfl⟩
      exact (this x hx).symm.trans (this y hy)
    · rintro h _ ⟨x, hx, rfl⟩
      exact h a (List.mem_cons_self ..) x (List.mem_cons_of_mem _ hx)

/-- Two events of the tested operand are on different sides of two events of the other one. -/
def Turned (s : State K) (p : Point K) (group : List Ev) : Prop :=
  ∃ g ∈ group, ∃ g' ∈ group, ∃ e ∈ group, ∃ e' ∈ group, s.evFromTest g = false ∧
    s.evFromTest g' = false ∧ s.evFromTest e = true ∧ s.evFromTest e' = true ∧
    InAngle p (s.evEnd g) (s.evEnd g') (s.evEnd e) ∧
    InAngle p (s.evEnd g') (s.evEnd g) (s.evEnd e')

/-- Events at a point whose directions all differ. -/
structure Star (s : State K) (p : Point K) (group : List Ev) : Prop where
  nodup : group.Nodup
  start : ∀ e ∈ group, s.evStart e = p
  ends : ∀ e ∈ group, s.evEnd e ≠ p
  rays : ∀ e ∈ group, ∀ e' ∈ group, e ≠ e' → ¬ SameRay p (s.evEnd e) (s.evEnd e')

theorem two_of_count {l : List Ev} (hn : l.Nodup) {f : Ev → Bool}
    (h : 1 < (l.filter f).length) : ∃ x ∈ l, ∃ y ∈ l, f x = true ∧ f y = true ∧ x ≠ y := by
  have nd := hn.filter f
  cases hl : l.filter f with
  | nil => rw [hl] at h; simp at h
  | cons x l' =>
    cases l' with
    | nil => rw [hl] at h; simp at h
    | cons y l'' =>
      have hx : x ∈ l.filter f := by rw [hl]; simp
      have hy : y ∈ l.filter f := by rw [hl]; simp
      rw [List.mem_filter] at hx hy
      rw [hl] at nd
      refine ⟨x, hx.1, y, hy.1, hx.2, hy.2, ?_⟩
      rintro rfl
      simp at nd

theorem count_split (l : List Ev) (f : Ev → Bool) :
    (l.filter f).length + (l.filter (fun x => !f x)).length = l.length := by
  induction l with
  | nil => rfl
  | cons a l ih =>
    cases h : f a <;> simp [h] <;> omega

/-- `detect_crossing_angles` either does nothing or finds directions on different sides. -/
theorem detectCrossingAngles_cases {context : Context K} (hc : context.Exact) {s : State K}
    {p : Point K} {group : List Ev} (st : Star s p group) :
    detectCrossingAngles context s group = s ∨
    (Turned s p group ∧ detectCrossingAngles context s group =
      group.foldl (fun s event => s.raiseRelation (s.leftOf event) .cross) s) := by
  unfold detectCrossingAngles
  simp only
  split_ifs with h0
  · exact .inl rfl
  · push Not at h0
    obtain ⟨h1, h2, h3⟩ := h0
    have hg : 1 < (group.filter fun event => !s.evFromTest event).length := by
      have := count_split group (fun event => s.evFromTest event)
      omega
    obtain ⟨x, hx, y, hy, fx, fy, hxy⟩ := two_of_count st.nodup hg
    simp only [Bool.not_eq_true'] at fx fy
    split
    · next first rest goal goals e1 =>
      split_ifs with h4
      · exact .inl rfl
      · refine .inr ⟨?_, rfl⟩
        have inGroup : ∀ z, z ∈ goal :: goals ↔ z ∈ first :: rest ∧ s.evFromTest z = false := by
          intro z
          rw [← e1, List.mem_filter]
          simp
        have hst : ∀ z ∈ goal :: goals, s.evStart z = p := fun z hz => st.start z ((inGroup z).mp hz).1
        have hen : ∀ z ∈ goal :: goals, s.evEnd z ≠ p := fun z hz => st.ends z ((inGroup z).mp hz).1
        have hgoal : goal ∈ goal :: goals := List.mem_cons_self ..
        rw [st.start first (List.mem_cons_self ..)] at h4
        set base := minBy (signedSquaredCosine context s (s.evEnd goal)) goal goals with hbase
        set largest := minBy (signedSquaredCosine context s (s.evEnd base)) goal goals with hlargest
        have mb : base ∈ goal :: goals := minBy_mem ..
        have ml : largest ∈ goal :: goals := minBy_mem ..
        have n1 : ¬ SameRay p (s.evEnd goal) (s.evEnd base) := by
          refine minBy_not_same hc hst hen (hen _ hgoal) ?_
          by_cases e : goal = x
          · exact ⟨y, (inGroup y).mpr ⟨hy, fy⟩, st.rays _ ((inGroup _).mp hgoal).1 y hy
              (fun e' => hxy (e.symm.trans e'))⟩
          · exact ⟨x, (inGroup x).mpr ⟨hx, fx⟩, st.rays _ ((inGroup _).mp hgoal).1 x hx e⟩
        have n2 : ¬ SameRay p (s.evEnd base) (s.evEnd largest) := by
          refine minBy_not_same hc hst hen (hen _ mb) ⟨goal, hgoal, fun h => n1 h.symm⟩
        rw [allEqual_map] at h4
        push Not at h4
        obtain ⟨t, ht, t', ht', hne⟩ := h4
        rw [List.mem_filter] at ht ht'
        have key : ∀ t, t ∈ first :: rest ∧ s.evFromTest t = true →
            (pointInAngle context (s.evEnd t) p (s.evEnd base) (s.evEnd largest)
              (context.angleOrientation p (s.evEnd base) (s.evEnd largest)) = true ↔
            if cross p (s.evEnd base) (s.evEnd largest) < 0
            then InAngle p (s.evEnd largest) (s.evEnd base) (s.evEnd t)
            else InAngle p (s.evEnd base) (s.evEnd largest) (s.evEnd t)) ∧
            (InAngle p (s.evEnd base) (s.evEnd largest) (s.evEnd t) ∨
              InAngle p (s.evEnd largest) (s.evEnd base) (s.evEnd t)) := by
          rintro t ⟨k1, k2⟩
          have d1 : base ≠ t := by rintro e; rw [← e, ((inGroup _).mp mb).2] at k2; cases k2
          have d2 : largest ≠ t := by rintro e; rw [← e, ((inGroup _).mp ml).2] at k2; cases k2
          have r1 := st.rays _ ((inGroup _).mp mb).1 t k1 d1
          have r2 := st.rays _ ((inGroup _).mp ml).1 t k1 d2
          exact ⟨pointInAngle_iff hc (hen _ mb) (hen _ ml) (st.ends t k1) n2 r1 r2,
            inAngle_or (hen _ mb) (hen _ ml) (st.ends t k1) n2 r1 r2⟩
        obtain ⟨a1, a2⟩ := key t ht
        obtain ⟨b1, b2⟩ := key t' ht'
        obtain ⟨gb, fb⟩ := (inGroup _).mp mb
        obtain ⟨gl, fl⟩ := (inGroup _).mp ml
        -- on different sides
        have main : (InAngle p (s.evEnd base) (s.evEnd largest) (s.evEnd t) ∧
            InAngle p (s.evEnd largest) (s.evEnd base) (s.evEnd t')) ∨
            (InAngle p (s.evEnd base) (s.evEnd largest) (s.evEnd t') ∧
            InAngle p (s.evEnd largest) (s.evEnd base) (s.evEnd t)) := by
          by_contra hcon
          apply hne
          rw [Bool.eq_iff_iff, a1, b1]
          split_ifs <;> grind
        rcases main with ⟨m1, m2⟩ | ⟨m1, m2⟩
        · exact ⟨base, gb, largest, gl, t, ht.1, t', ht'.1, fb, fl, ht.2, ht'.2, m1, m2⟩
        · exact ⟨base, gb, largest, gl, t', ht'.1, t, ht.1, fb, fl, ht'.2, ht.2, m1, m2⟩
    · exact .inl rfl

/-- If there are just two events of the other operand then `detect_crossing_angles` finds out
whether the events of the tested one are on different sides of them. -/
theorem detectCrossingAngles_two {context : Context K} (hc : context.Exact) {s : State K}
    {p : Point K} {group : List Ev} (st : Star s p group) (ht : Turned s p group)
    (two : ∀ x ∈ group, ∀ y ∈ group, ∀ z ∈ group, s.evFromTest x = false → s.evFromTest y = false →
      s.evFromTest z = false → x = y ∨ x = z ∨ y = z) :
    detectCrossingAngles context s group =
      group.foldl (fun s event => s.raiseRelation (s.leftOf event) .cross) s := by
  obtain ⟨g, hg, g', hg', e, he, e', he', fg, fg', fe, fe', i1, i2⟩ := ht
  have hgg : g ≠ g' := by
    rintro rfl
    exact i1.not_swap i1
  have hee : e ≠ e' := by
    rintro rfl
    exact i1.not_swap i2
  have count : ∀ {f : Ev → Bool} {x y : Ev}, x ∈ group → y ∈ group → f x = true → f y = true → x ≠ y →
      1 < (group.filter f).length := by
    intro f x y hx hy fx fy hne
    have h1 : x ∈ group.filter f := List.mem_filter.mpr ⟨hx, fx⟩
    have h2 : y ∈ group.filter f := List.mem_filter.mpr ⟨hy, fy⟩
    by_contra hn
    push Not at hn
    match hl : group.filter f with
    | [] => rw [hl] at h1; cases h1
    | [a] =>
      rw [hl, List.mem_singleton] at h1 h2
      exact hne (h1.trans h2.symm)
    | a :: b :: l => rw [hl] at hn; simp at hn
  have c1 : 1 < (group.filter fun event => s.evFromTest event).length := count he he' fe fe' hee
  have c2 : 1 < (group.filter fun event => !s.evFromTest event).length :=
    count hg hg' (by simp [fg]) (by simp [fg']) hgg
  have c3 := count_split group (fun event => s.evFromTest event)
  unfold detectCrossingAngles
  simp only
  rw [if_neg (by push Not; omega)]
  split
  · next first rest goal goals e1 =>
    have inGroup : ∀ z, z ∈ goal :: goals ↔ z ∈ first :: rest ∧ s.evFromTest z = false := by
      intro z
      rw [← e1, List.mem_filter]
      simp
    have hst : ∀ z ∈ goal :: goals, s.evStart z = p := fun z hz => st.start z ((inGroup z).mp hz).1
    have hen : ∀ z ∈ goal :: goals, s.evEnd z ≠ p := fun z hz => st.ends z ((inGroup z).mp hz).1
    have hgoal : goal ∈ goal :: goals := List.mem_cons_self ..
    have mg : g ∈ goal :: goals := (inGroup g).mpr ⟨hg, fg⟩
    have mg' : g' ∈ goal :: goals := (inGroup g').mpr ⟨hg', fg'⟩
    rw [st.start first (List.mem_cons_self ..)]
    set base := minBy (signedSquaredCosine context s (s.evEnd goal)) goal goals with hbase
    set largest := minBy (signedSquaredCosine context s (s.evEnd base)) goal goals with hlargest
    have mb : base ∈ goal :: goals := minBy_mem ..
    have ml : largest ∈ goal :: goals := minBy_mem ..
    have refl : ∀ z, SameRay p z z := fun z => ⟨1, one_pos, (lerp_one _ _).symm⟩
    have n1 : ¬ SameRay p (s.evEnd goal) (s.evEnd base) := by
      refine minBy_not_same hc hst hen (hen _ hgoal) ?_
      by_cases e : goal = g
      · exact ⟨g', mg', st.rays _ ((inGroup _).mp hgoal).1 g' hg' (fun e' => hgg (e.symm.trans e'))⟩
      · exact ⟨g, mg, st.rays _ ((inGroup _).mp hgoal).1 g hg e⟩
    have n2 : ¬ SameRay p (s.evEnd base) (s.evEnd largest) := by
      refine minBy_not_same hc hst hen (hen _ mb) ⟨goal, hgoal, fun h => n1 h.symm⟩
    have hbl : base ≠ largest := by
      intro e
      rw [← e] at n2
      exact n2 (refl _)
    obtain ⟨gb, fb⟩ := (inGroup _).mp mb
    obtain ⟨gl, fl⟩ := (inGroup _).mp ml
    have key : ∀ t, t ∈ first :: rest → s.evFromTest t = true →
        (pointInAngle context (s.evEnd t) p (s.evEnd base) (s.evEnd largest)
          (context.angleOrientation p (s.evEnd base) (s.evEnd largest)) = true ↔
        if cross p (s.evEnd base) (s.evEnd largest) < 0
        then InAngle p (s.evEnd largest) (s.evEnd base) (s.evEnd t)
        else InAngle p (s.evEnd base) (s.evEnd largest) (s.evEnd t)) := by
      rintro t k1 k2
      have d1 : base ≠ t := by rintro e; rw [← e, fb] at k2; cases k2
      have d2 : largest ≠ t := by rintro e; rw [← e, fl] at k2; cases k2
      have r1 := st.rays _ gb t k1 d1
      have r2 := st.rays _ gl t k1 d2
      exact pointInAngle_iff hc (hen _ mb) (hen _ ml) (st.ends t k1) n2 r1 r2
    have a1 := key e he fe
    have b1 := key e' he' fe'
    rw [if_neg]
    rw [allEqual_map]
    intro hall
    have eq := hall e (List.mem_filter.mpr ⟨he, fe⟩) e' (List.mem_filter.mpr ⟨he', fe'⟩)
    rw [Bool.eq_iff_iff, a1, b1] at eq
    have s1 := i1.not_swap
    have s2 := i2.not_swap
    have t1 : g = base ∨ g = largest := by
      rcases two g hg base gb largest gl fg fb fl with h | h | h
      · exact .inl h
      · exact .inr h
      · exact absurd h hbl
    have t2 : g' = base ∨ g' = largest := by
      rcases two g' hg' base gb largest gl fg' fb fl with h | h | h
      · exact .inl h
      · exact .inr h
      · exact absurd h hbl
    rcases t1 with t1 | t1 <;> rcases t2 with t2 | t2
    · exact hgg (t1.trans t2.symm)
    · rw [t1, t2] at i1 i2 s1 s2
      split_ifs at eq
      · exact s1 (eq.mpr i2)
      · exact s2 (eq.mp i1)
    · rw [t1, t2] at i1 i2 s1 s2
      split_ifs at eq
      · exact s2 (eq.mp i1)
      · exact s1 (eq.mpr i2)
    · exact hgg (t1.trans t2.symm)
  · next h =>
    exfalso
    obtain ⟨a, l, hl⟩ := List.exists_cons_of_ne_nil (List.ne_nil_of_mem hg)
    obtain ⟨b, m, hm⟩ := List.exists_cons_of_ne_nil (List.ne_nil_of_length_pos (Nat.zero_lt_of_lt c2))
    exact h a l b m hl hm

end eventsQueue

end Orient
