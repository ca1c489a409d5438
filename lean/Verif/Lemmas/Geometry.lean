import Verif.Spec.Context
import Mathlib.Tactic.Ring
import Mathlib.Tactic.Linarith
import Mathlib.Tactic.FieldSimp
import Mathlib.Tactic.LinearCombination
import Mathlib.Tactic.Positivity

/-! Elementary facts about points, cross products and segments. -/

set_option linter.unusedSectionVars false

namespace Orient

variable {K : Type} [Field K] [LinearOrder K] [IsStrictOrderedRing K]

namespace Point

theorem le_iff (a b : Point K) : a ≤ b ↔ a.x < b.x ∨ a.x = b.x ∧ a.y ≤ b.y := by
  change toLex (a.x, a.y) ≤ toLex (b.x, b.y) ↔ _
  rw [Prod.Lex.toLex_le_toLex]

theorem lt_iff (a b : Point K) : a < b ↔ a.x < b.x ∨ a.x = b.x ∧ a.y < b.y := by
  change toLex (a.x, a.y) < toLex (b.x, b.y) ↔ _
  rw [Prod.Lex.toLex_lt_toLex]

end Point

/-! ### cross products -/

theorem cross_self_left (v a : Point K) : cross v v a = 0 := by simp [cross]

theorem cross_self_right (v a : Point K) : cross v a v = 0 := by simp [cross]

theorem cross_same (v a : Point K) : cross v a a = 0 := by simp [cross]; ring

theorem cross_swap (v a b : Point K) : cross v b a = - cross v a b := by simp only [cross]; ring

theorem cross_rotate (a b c : Point K) : cross b c a = cross a b c := by simp only [cross]; ring

theorem cross_rotate' (a b c : Point K) : cross c a b = cross a b c := by simp only [cross]; ring

theorem cross_flip (a b c : Point K) : cross b a c = - cross a b c := by simp only [cross]; ring

theorem cross_lerp (a b c d : Point K) (t : K) :
    cross a b (lerp c d t) = cross a b c + t * (cross a b d - cross a b c) := by
  simp only [cross, lerp]; ring

theorem cross_lerp_self (a b : Point K) (t : K) : cross a b (lerp a b t) = 0 := by
  simp only [cross, lerp]; ring

/-! ### divisions of the way -/

@[simp] theorem lerp_zero (a b : Point K) : lerp a b 0 = a := by simp [lerp]

@[simp] theorem lerp_one (a b : Point K) : lerp a b 1 = b := by simp [lerp]

theorem lerp_symm (a b : Point K) (t : K) : lerp a b t = lerp b a (1 - t) := by
  simp only [lerp, Point.mk.injEq]; constructor <;> ring

theorem lerp_lerp (a b : Point K) (s t u : K) :
    lerp (lerp a b s) (lerp a b t) u = lerp a b (s + u * (t - s)) := by
  simp only [lerp, Point.mk.injEq]; constructor <;> ring

theorem lerp_injective {a b : Point K} (h : a ≠ b) {s t : K} (e : lerp a b s = lerp a b t) :
    s = t := by
  simp only [lerp, Point.mk.injEq] at e
  by_contra hne
  apply h
  have h1 : (s - t) * (b.x - a.x) = 0 := by linear_combination e.1
  have h2 : (s - t) * (b.y - a.y) = 0 := by linear_combination e.2
  have hst : s - t ≠ 0 := sub_ne_zero.mpr hne
  have hx := (mul_eq_zero.mp h1).resolve_left hst
  have hy := (mul_eq_zero.mp h2).resolve_left hst
  exact Point.ext (by linear_combination -hx) (by linear_combination -hy)

/-- The order of points on a segment that goes up is the order of ratios. -/
theorem lerp_le_lerp_iff {a b : Point K} (h : a < b) (s t : K) :
    lerp a b s ≤ lerp a b t ↔ s ≤ t := by
  rw [Point.lt_iff] at h
  rw [Point.le_iff]
  simp only [lerp]
  rcases h with h | ⟨hx, hy⟩
  · have hp : 0 < b.x - a.x := sub_pos.mpr h
    constructor
    · rintro (h' | ⟨h', -⟩)
      · have : s * (b.x - a.x) < t * (b.x - a.x) := by linarith
        exact (lt_of_mul_lt_mul_right this hp.le).le
      · have : s * (b.x - a.x) = t * (b.x - a.x) := by linarith
        exact (mul_right_cancel₀ hp.ne' this).le
    · intro hst
      rcases hst.lt_or_eq with hst | hst
      · left; have := mul_lt_mul_of_pos_right hst hp; linarith
      · right; subst hst; exact ⟨rfl, le_rfl⟩
  · have hp : 0 < b.y - a.y := sub_pos.mpr hy
    rw [hx]
    constructor
    · rintro (h' | ⟨-, h'⟩)
      · simp at h'
      · have : s * (b.y - a.y) ≤ t * (b.y - a.y) := by linarith
        exact le_of_mul_le_mul_right this hp
    · intro hst
      right
      refine ⟨by ring, ?_⟩
      have := mul_le_mul_of_nonneg_right hst hp.le
      linarith

theorem lerp_lt_lerp_iff {a b : Point K} (h : a < b) (s t : K) :
    lerp a b s < lerp a b t ↔ s < t := by
  rw [← not_le, ← not_le, lerp_le_lerp_iff h]

/-- A point collinear with two different points divides the way between them. -/
theorem exists_lerp_of_cross_eq_zero {a b p : Point K} (h : a ≠ b) (hc : cross a b p = 0) :
    ∃ t, p = lerp a b t := by
  simp only [cross] at hc
  by_cases hx : b.x - a.x = 0
  · have hy : b.y - a.y ≠ 0 := by
      intro hy
      exact h (Point.ext (by linear_combination -hx) (by linear_combination -hy))
    refine ⟨(p.y - a.y) / (b.y - a.y), ?_⟩
    have hpx : p.x - a.x = 0 := by
      have : (b.y - a.y) * (p.x - a.x) = 0 := by linear_combination (p.y - a.y) * hx - hc
      exact (mul_eq_zero.mp this).resolve_left hy
    apply Point.ext
    · simp only [lerp]; rw [hx]; linear_combination hpx
    · simp only [lerp]; field_simp; ring
  · refine ⟨(p.x - a.x) / (b.x - a.x), ?_⟩
    apply Point.ext
    · simp only [lerp]; field_simp; ring
    · simp only [lerp]; field_simp; linear_combination hc

/-! ### points of segments -/

namespace Segment

theorem start_mem (s : Segment K) : s.start ∈ s.pts := ⟨0, le_rfl, zero_le_one, by simp⟩

theorem finish_mem (s : Segment K) : s.finish ∈ s.pts := ⟨1, zero_le_one, le_rfl, by simp⟩

theorem IsEndpoint.mem {s : Segment K} {p : Point K} (h : s.IsEndpoint p) : p ∈ s.pts := by
  rcases h with rfl | rfl
  · exact s.start_mem
  · exact s.finish_mem

theorem pts_nonempty (s : Segment K) : s.pts.Nonempty := ⟨_, s.start_mem⟩

theorem pts_reverse (s : Segment K) : s.reverse.pts = s.pts := by
  ext p
  constructor
  · rintro ⟨t, h0, h1, rfl⟩
    exact ⟨1 - t, by linarith, by linarith, lerp_symm _ _ _⟩
  · rintro ⟨t, h0, h1, rfl⟩
    exact ⟨1 - t, by linarith, by linarith, lerp_symm _ _ _⟩

theorem cross_eq_zero {s : Segment K} {p : Point K} (h : p ∈ s.pts) :
    cross s.start s.finish p = 0 := by
  obtain ⟨t, -, -, rfl⟩ := h
  exact cross_lerp_self _ _ _

/-- Membership for a segment whose endpoints are in lexicographic order. -/
theorem mem_pts_iff_of_lt {s : Segment K} (h : s.start < s.finish) (p : Point K) :
    p ∈ s.pts ↔ cross s.start s.finish p = 0 ∧ s.start ≤ p ∧ p ≤ s.finish := by
  constructor
  · rintro ⟨t, h0, h1, rfl⟩
    refine ⟨cross_lerp_self _ _ _, ?_, ?_⟩
    · conv_lhs => rw [← lerp_zero s.start s.finish]
      rwa [lerp_le_lerp_iff h]
    · conv_rhs => rw [← lerp_one s.start s.finish]
      rwa [lerp_le_lerp_iff h]
  · rintro ⟨hc, h0, h1⟩
    obtain ⟨t, rfl⟩ := exists_lerp_of_cross_eq_zero h.ne hc
    have e0 := lerp_le_lerp_iff h 0 t
    have e1 := lerp_le_lerp_iff h t 1
    rw [lerp_zero] at e0
    rw [lerp_one] at e1
    exact ⟨t, e0.mp h0, e1.mp h1, rfl⟩

/-- Membership in terms of coordinates, for any segment. -/
theorem mem_pts_iff (s : Segment K) (p : Point K) :
    p ∈ s.pts ↔ cross s.start s.finish p = 0 ∧ min s.start s.finish ≤ p ∧ p ≤ max s.start s.finish := by
  rcases lt_trichotomy s.start s.finish with h | h | h
  · rw [mem_pts_iff_of_lt h, min_eq_left h.le, max_eq_right h.le]
  · rw [h, min_self, max_self]
    constructor
    · rintro ⟨t, -, -, rfl⟩
      have : lerp s.finish s.finish t = s.finish := by simp [lerp]
      rw [h, this]
      exact ⟨cross_self_left _ _, le_rfl, le_rfl⟩
    · rintro ⟨-, h0, h1⟩
      rw [le_antisymm h1 h0]
      exact s.finish_mem
  · rw [← pts_reverse, mem_pts_iff_of_lt (s := s.reverse) h, min_eq_right h.le, max_eq_left h.le]
    simp only [reverse]
    rw [cross_flip, neg_eq_zero]

/-- The lexicographically smallest point of a segment. -/
def lo (s : Segment K) : Point K := min s.start s.finish

/-- The lexicographically largest point of a segment. -/
def hi (s : Segment K) : Point K := max s.start s.finish

theorem lo_mem (s : Segment K) : s.lo ∈ s.pts := by
  unfold lo
  rcases min_choice s.start s.finish with h | h <;> rw [h]
  · exact s.start_mem
  · exact s.finish_mem

theorem hi_mem (s : Segment K) : s.hi ∈ s.pts := by
  unfold hi
  rcases max_choice s.start s.finish with h | h <;> rw [h]
  · exact s.start_mem
  · exact s.finish_mem

theorem lo_le {s : Segment K} {p : Point K} (h : p ∈ s.pts) : s.lo ≤ p :=
  ((mem_pts_iff s p).mp h).2.1

theorem le_hi {s : Segment K} {p : Point K} (h : p ∈ s.pts) : p ≤ s.hi :=
  ((mem_pts_iff s p).mp h).2.2

theorem lo_lt_hi {s : Segment K} (h : s.Nondegenerate) : s.lo < s.hi := min_lt_max.mpr h

theorem isEndpoint_iff (s : Segment K) (p : Point K) : s.IsEndpoint p ↔ p = s.lo ∨ p = s.hi := by
  unfold IsEndpoint lo hi
  rcases le_total s.start s.finish with h | h
  · rw [min_eq_left h, max_eq_right h]
  · rw [min_eq_right h, max_eq_left h, or_comm]

/-- A segment with the endpoints in lexicographic order. -/
theorem mem_pts_iff_lo_hi {s : Segment K} (h : s.Nondegenerate) (p : Point K) :
    p ∈ s.pts ↔ cross s.lo s.hi p = 0 ∧ s.lo ≤ p ∧ p ≤ s.hi := by
  rw [mem_pts_iff]
  unfold lo hi
  rcases lt_or_gt_of_ne h with h | h
  · rw [min_eq_left h.le, max_eq_right h.le]
  · rw [min_eq_right h.le, max_eq_left h.le, cross_flip, neg_eq_zero]

end Segment

/-- Three points collinear with two different points are collinear. -/
theorem collinear_trans {a b p q r : Point K} (h : a ≠ b) (hp : cross a b p = 0)
    (hq : cross a b q = 0) (hr : cross a b r = 0) : cross p q r = 0 := by
  obtain ⟨s, rfl⟩ := exists_lerp_of_cross_eq_zero h hp
  obtain ⟨t, rfl⟩ := exists_lerp_of_cross_eq_zero h hq
  obtain ⟨u, rfl⟩ := exists_lerp_of_cross_eq_zero h hr
  simp only [cross, lerp]; ring

/-- The line through two points of a line is the line. -/
theorem cross_eq_zero_iff_of_collinear {a b c d : Point K} (h : a ≠ b) (h' : c ≠ d)
    (hc : cross a b c = 0) (hd : cross a b d = 0) (p : Point K) :
    cross c d p = 0 ↔ cross a b p = 0 := by
  constructor
  · intro hp
    have ha : cross c d a = 0 := collinear_trans h hc hd (cross_self_right _ _)
    have hb : cross c d b = 0 := collinear_trans h hc hd (cross_same _ _)
    exact collinear_trans h' ha hb hp
  · intro hp
    exact collinear_trans h hc hd hp

/-- Between two different points of a line there is a third one. -/
theorem exists_between_collinear {a b : Point K} (h : a < b) :
    ∃ m, a < m ∧ m < b ∧ cross a b m = 0 := by
  refine ⟨lerp a b (1 / 2), ?_, ?_, cross_lerp_self _ _ _⟩
  · have := lerp_lt_lerp_iff h 0 (1 / 2)
    rw [lerp_zero] at this
    exact this.mpr (by norm_num)
  · have := lerp_lt_lerp_iff h (1 / 2) 1
    rw [lerp_one] at this
    exact this.mpr (by norm_num)

namespace Segment

/-- Two segments on a line. -/
def Collinear (t g : Segment K) : Prop :=
  cross t.start t.finish g.start = 0 ∧ cross t.start t.finish g.finish = 0

theorem Collinear.cross_iff {t g : Segment K} (h : t.Collinear g) (ht : t.Nondegenerate)
    (hg : g.Nondegenerate) (p : Point K) :
    cross g.start g.finish p = 0 ↔ cross t.start t.finish p = 0 :=
  cross_eq_zero_iff_of_collinear ht hg h.1 h.2 p

theorem Collinear.symm {t g : Segment K} (h : t.Collinear g) (ht : t.Nondegenerate)
    (hg : g.Nondegenerate) : g.Collinear t :=
  ⟨(h.cross_iff ht hg _).mpr (cross_self_right _ _), (h.cross_iff ht hg _).mpr (cross_same _ _)⟩

theorem Collinear.mem_iff {t g : Segment K} (h : t.Collinear g) (ht : t.Nondegenerate)
    (hg : g.Nondegenerate) (p : Point K) :
    p ∈ g.pts ↔ cross t.start t.finish p = 0 ∧ g.lo ≤ p ∧ p ≤ g.hi := by
  rw [mem_pts_iff, h.cross_iff ht hg]; rfl

theorem Collinear.mem_inter_iff {t g : Segment K} (h : t.Collinear g) (ht : t.Nondegenerate)
    (hg : g.Nondegenerate) (p : Point K) :
    p ∈ t.pts ∩ g.pts ↔
      cross t.start t.finish p = 0 ∧ max t.lo g.lo ≤ p ∧ p ≤ min t.hi g.hi := by
  rw [Set.mem_inter_iff, h.mem_iff ht hg, mem_pts_iff, max_le_iff, le_min_iff]
  change (_ ∧ t.lo ≤ p ∧ p ≤ t.hi) ∧ _ ↔ _
  tauto

theorem Collinear.subset_iff {t g : Segment K} (h : t.Collinear g) (ht : t.Nondegenerate)
    (hg : g.Nondegenerate) : t.pts ⊆ g.pts ↔ g.lo ≤ t.lo ∧ t.hi ≤ g.hi := by
  constructor
  · intro hs
    exact ⟨lo_le (hs t.lo_mem), le_hi (hs t.hi_mem)⟩
  · rintro ⟨h0, h1⟩ p hp
    rw [h.mem_iff ht hg]
    exact ⟨cross_eq_zero hp, h0.trans (lo_le hp), (le_hi hp).trans h1⟩

theorem Collinear.superset_iff {t g : Segment K} (h : t.Collinear g) (ht : t.Nondegenerate)
    (hg : g.Nondegenerate) : g.pts ⊆ t.pts ↔ t.lo ≤ g.lo ∧ g.hi ≤ t.hi :=
  (h.symm ht hg).subset_iff hg ht

theorem cross_lo {t g : Segment K} (h : t.Collinear g) : cross t.start t.finish g.lo = 0 := by
  unfold lo
  rcases min_choice g.start g.finish with h' | h' <;> rw [h']
  · exact h.1
  · exact h.2

theorem cross_hi {t g : Segment K} (h : t.Collinear g) : cross t.start t.finish g.hi = 0 := by
  unfold hi
  rcases max_choice g.start g.finish with h' | h' <;> rw [h']
  · exact h.1
  · exact h.2

theorem collinear_self (t : Segment K) : t.Collinear t := ⟨cross_self_right _ _, cross_same _ _⟩

/-- A segment determines its least and its greatest point. -/
theorem pts_eq_iff {t g : Segment K} (ht : t.Nondegenerate) (hg : g.Nondegenerate) :
    t.pts = g.pts ↔ t.lo = g.lo ∧ t.hi = g.hi := by
  constructor
  · intro h
    exact ⟨le_antisymm (lo_le (h ▸ g.lo_mem)) (lo_le (h ▸ t.lo_mem)),
      le_antisymm (le_hi (h ▸ t.hi_mem)) (le_hi (h ▸ g.hi_mem))⟩
  · rintro ⟨h0, h1⟩
    ext p
    rw [mem_pts_iff_lo_hi ht, mem_pts_iff_lo_hi hg, h0, h1]

/-- Two segments which share two points lie on a line. -/
theorem collinear_of_nontrivial {t g : Segment K} (hg : g.Nondegenerate)
    (h : (t.pts ∩ g.pts).Nontrivial) : t.Collinear g := by
  obtain ⟨p, hp, q, hq, hne⟩ := h
  have e : ∀ r, cross g.start g.finish r = 0 → cross p q r = 0 := fun r hr =>
    collinear_trans hg (cross_eq_zero hp.2) (cross_eq_zero hq.2) hr
  by_cases ht : t.start = t.finish
  · constructor <;> rw [ht] <;> exact cross_self_left _ _
  · have e' := cross_eq_zero_iff_of_collinear ht hne (cross_eq_zero hp.1) (cross_eq_zero hq.1)
    exact ⟨(e' _).mp (e _ (cross_self_right _ _)), (e' _).mp (e _ (cross_same _ _))⟩

end Segment

end Orient
