import Verif.Lemmas.Geometry

/-! Two segments which do not lie on a line: their common point and the signs of cross products. -/

set_option linter.unusedSectionVars false

namespace Orient.Segment

variable {K : Type} [Field K] [LinearOrder K] [IsStrictOrderedRing K]

theorem not_collinear_symm {t g : Segment K} (ht : t.Nondegenerate) (hg : g.Nondegenerate)
    (h : ¬ t.Collinear g) : ¬ g.Collinear t := fun h' => h (h'.symm hg ht)

/-- Segments which do not lie on a line share at most one point. -/
theorem inter_eq_singleton {t g : Segment K} (hg : g.Nondegenerate) (h : ¬ t.Collinear g)
    {p : Point K} (hp : p ∈ t.pts) (hp' : p ∈ g.pts) : t.pts ∩ g.pts = {p} := by
  refine Set.Subsingleton.eq_singleton_of_mem ?_ (Set.mem_inter hp hp')
  by_contra hn
  exact h (collinear_of_nontrivial hg (Set.not_subsingleton_iff.mp hn))

/-- The identity behind the solution of the two linear equations. -/
theorem lerp_eq_lerp {a b c d : Point K}
    (hD : cross a b d - cross a b c ≠ 0) :
    lerp a b (cross c d a / (cross a b d - cross a b c))
      = lerp c d (-cross a b c / (cross a b d - cross a b c)) := by
  apply Point.ext
  · simp only [lerp]
    rw [← sub_eq_zero]
    have : (a.x + cross c d a / (cross a b d - cross a b c) * (b.x - a.x)
      - (c.x + -cross a b c / (cross a b d - cross a b c) * (d.x - c.x)))
      = ((a.x - c.x) * (cross a b d - cross a b c) + cross c d a * (b.x - a.x)
        + cross a b c * (d.x - c.x)) / (cross a b d - cross a b c) := by
      field_simp; ring
    rw [this, div_eq_zero_iff]; left
    simp only [cross]; ring
  · simp only [lerp]
    rw [← sub_eq_zero]
    have : (a.y + cross c d a / (cross a b d - cross a b c) * (b.y - a.y)
      - (c.y + -cross a b c / (cross a b d - cross a b c) * (d.y - c.y)))
      = ((a.y - c.y) * (cross a b d - cross a b c) + cross c d a * (b.y - a.y)
        + cross a b c * (d.y - c.y)) / (cross a b d - cross a b c) := by
      field_simp; ring
    rw [this, div_eq_zero_iff]; left
    simp only [cross]; ring

theorem cross_diff (a b c d : Point K) :
    cross c d b - cross c d a = -(cross a b d - cross a b c) := by
  simp only [cross]; ring

/-- Segments meet when each separates the endpoints of the other (weakly). -/
theorem exists_mem_inter {t g : Segment K} (h : ¬ t.Collinear g)
    (h1 : cross t.start t.finish g.start * cross t.start t.finish g.finish ≤ 0)
    (h2 : cross g.start g.finish t.start * cross g.start g.finish t.finish ≤ 0) :
    ∃ s u : K, 0 ≤ s ∧ s ≤ 1 ∧ 0 ≤ u ∧ u ≤ 1 ∧ lerp t.start t.finish s = lerp g.start g.finish u ∧
      cross g.start g.finish t.start + s *
        (cross g.start g.finish t.finish - cross g.start g.finish t.start) = 0 ∧
      cross t.start t.finish g.start + u *
        (cross t.start t.finish g.finish - cross t.start t.finish g.start) = 0 := by
  obtain ⟨a, b⟩ := t
  obtain ⟨c, d⟩ := g
  simp only [Collinear] at *
  have hd := cross_diff a b c d
  have hD : cross a b d - cross a b c ≠ 0 := by
    intro hD
    apply h
    have e : cross a b d = cross a b c := sub_eq_zero.mp hD
    rw [e] at h1
    have : cross a b c = 0 := by nlinarith [mul_self_nonneg (cross a b c)]
    exact ⟨this, e.trans this⟩
  have e := lerp_eq_lerp hD
  refine ⟨_, _, ?_, ?_, ?_, ?_, e, ?_, ?_⟩
  · rcases lt_or_gt_of_ne hD with hD | hD
    · apply div_nonneg_of_nonpos _ hD.le; nlinarith
    · apply div_nonneg _ hD.le; nlinarith
  · rcases lt_or_gt_of_ne hD with hD | hD
    · rw [div_le_one_of_neg hD]; nlinarith
    · rw [div_le_one hD]; nlinarith
  · rcases lt_or_gt_of_ne hD with hD | hD
    · apply div_nonneg_of_nonpos _ hD.le; nlinarith
    · apply div_nonneg _ hD.le; nlinarith
  · rcases lt_or_gt_of_ne hD with hD | hD
    · rw [div_le_one_of_neg hD]; nlinarith
    · rw [div_le_one hD]; nlinarith
  · rw [hd]; field_simp; ring
  · field_simp; ring

/-- A common point forces the signs. -/
theorem signs_of_mem_inter {t g : Segment K} {p : Point K} (hp : p ∈ t.pts) (hp' : p ∈ g.pts) :
    cross t.start t.finish g.start * cross t.start t.finish g.finish ≤ 0 := by
  have h0 := cross_eq_zero hp
  obtain ⟨u, u0, u1, rfl⟩ := hp'
  rw [cross_lerp] at h0
  by_contra hn
  push Not at hn
  have u1' : 0 ≤ 1 - u := by linarith
  rcases pos_and_pos_or_neg_and_neg_of_mul_pos hn with ⟨ha, hb⟩ | ⟨ha, hb⟩ <;>
    rcases u0.lt_or_eq with u0 | u0
  · have := mul_pos u0 hb
    have := mul_nonneg u1' ha.le
    linarith
  · rw [← u0] at h0; linarith
  · have := mul_neg_of_pos_of_neg u0 hb
    have := mul_nonpos_of_nonneg_of_nonpos u1' ha.le
    linarith
  · rw [← u0] at h0; linarith

/-- An interior common point forces strict signs, when the segments do not lie on a line. -/
theorem strict_signs_of_mem_inter {t g : Segment K} (h : ¬ t.Collinear g) {p : Point K}
    (hp : p ∈ t.pts) (hp' : p ∈ g.pts) (hn : ¬ g.IsEndpoint p) :
    cross t.start t.finish g.start * cross t.start t.finish g.finish < 0 := by
  have hle := signs_of_mem_inter hp hp'
  refine lt_of_le_of_ne hle ?_
  intro he
  have h0 := cross_eq_zero hp
  obtain ⟨u, u0, u1, rfl⟩ := hp'
  rw [cross_lerp] at h0
  have hu0 : u ≠ 0 := by
    rintro rfl; exact hn (Or.inl (lerp_zero _ _))
  have hu1 : 1 - u ≠ 0 := by
    intro h1
    have : u = 1 := by linear_combination -h1
    rw [this] at hn; exact hn (Or.inr (lerp_one _ _))
  apply h
  rcases mul_eq_zero.mp he with hz | hz
  · refine ⟨hz, ?_⟩
    rw [hz] at h0
    have : u * cross t.start t.finish g.finish = 0 := by linear_combination h0
    exact (mul_eq_zero.mp this).resolve_left hu0
  · refine ⟨?_, hz⟩
    rw [hz] at h0
    have : (1 - u) * cross t.start t.finish g.start = 0 := by linear_combination h0
    exact (mul_eq_zero.mp this).resolve_left hu1

end Orient.Segment
