import Verif.Lemmas.Parity
import Verif.Lemmas.Contour
import Verif.Spec.EvenOdd
import Verif.Model.Region
import Mathlib.Data.Finset.Image
import Mathlib.Order.Interval.Set.Infinite

/-! `region.locatePoint` is the even-odd rule. -/

set_option linter.unusedSectionVars false

namespace Orient

variable {K : Type} [Field K] [LinearOrder K] [IsStrictOrderedRing K]

/-- The direction of the ray used by the code. -/
def rightward : Point K := ⟨1, 0⟩

theorem rightward_isDirection : IsDirection (rightward : Point K) := Or.inl one_ne_zero

theorem side_rightward (p v : Point K) : side p rightward v = v.y - p.y := by
  simp [side, rightward]

/-- The condition of the code is the half-open rule. -/
theorem rayCrosses_iff {context : Context K} (hc : context.Exact) {p : Point K} {e : Segment K}
    (hp : p ∉ e.pts) :
    region.rayCrosses context p e.start e.finish = true ↔
      HalfCross p rightward e.start e.finish := by
  obtain ⟨a, b⟩ := e
  have hne := cross_ne_zero_of_straddle (d := rightward) hp
  have hcc := hc.counterclockwise a b p
  rw [cross_rotate p a b] at hcc
  simp only [side_rightward, sub_pos] at hne
  unfold region.rayCrosses HalfCross
  simp only [Bool.and_eq_true, bne_iff_ne, ne_eq, beq_iff_eq, decide_eq_decide, gt_iff_lt,
    side_rightward, sub_pos]
  rw [hcc]
  have hab : ¬ p.y < a.y → p.y < b.y → a.y < b.y := fun h1 h2 => lt_of_le_of_lt (not_lt.mp h1) h2
  have hba : p.y < a.y → ¬ p.y < b.y → ¬ a.y < b.y :=
    fun h1 h2 => not_lt.mpr ((not_lt.mp h2).trans h1.le)
  have hcb : ∀ {x : K}, 0 < x → ¬ x < 0 := fun h => not_lt.mpr h.le
  by_cases ha : p.y < a.y <;> by_cases hb : p.y < b.y
  · simp [ha, hb]
  · have h1 := hba ha hb
    have h2 := hne (by simp [ha, hb])
    simp only [ha, hb, h1, true_iff, not_false_eq_true, true_and, not_true_eq_false, false_and,
      false_or, false_iff, false_or]
    constructor
    · intro h3; exact h2.resolve_left h3
    · intro h3 h4; exact hcb h4 h3
  · have h1 := hab ha hb
    simp only [ha, hb, h1, true_iff, not_false_eq_true, true_and, not_true_eq_false, false_and,
      or_false, iff_true]
  · simp [ha, hb]

open Classical in
/-- The loop: the boundary is found, otherwise crossings are counted. -/
theorem locateLoop_eq {context : Context K} (hc : context.Exact) (p : Point K) :
    ∀ (l : List (Segment K)) (i : Int) (b : Bool),
    ((region.locateLoop context p i l b).2 = .boundary ↔ p ∈ segsPts l) ∧
    (p ∉ segsPts l →
      (region.locateLoop context p i l b) = (none,
        if b = decide (Even (l.countP (fun s => decide (HalfCross p rightward s.start s.finish))))
        then .interior else .exterior)) := by
  intro l
  induction l with
  | nil =>
    intro i b
    cases b <;> simp [region.locateLoop, segsPts]
  | cons e l ih =>
    intro i b
    have hm : p ∈ segsPts (e :: l) ↔ p ∈ e.pts ∨ p ∈ segsPts l := by simp [segsPts]
    rw [region.locateLoop, hm]
    by_cases hp : p ∈ e.pts
    · have : segment.locatePoint e p context = .boundary := by
        simp [segment.locatePoint, (hc.contains e p).mpr hp]
      simp [this, hp]
    · have : segment.locatePoint e p context ≠ .boundary := by
        have h' : ¬ context.segmentContainsPoint e p = true := fun h => hp ((hc.contains e p).mp h)
        simp [segment.locatePoint, h']
      rw [if_neg this]
      have ih' := ih (i + 1)
        (if region.rayCrosses context p e.start e.finish = true then !b else b)
      refine ⟨by rw [ih'.1]; simp [hp], ?_⟩
      intro hn
      rw [ih'.2 (fun h => hn (Or.inr h))]
      congr 1
      rw [List.countP_cons]
      have hr := rayCrosses_iff hc hp
      by_cases hx : HalfCross p rightward e.start e.finish
      · rw [if_pos (hr.mpr hx)]
        simp only [hx, decide_true, if_true, Nat.even_add_one]
        by_cases hev : Even (l.countP (fun s => decide (HalfCross p rightward s.start s.finish)))
          <;> cases b <;> simp [hev]
      · rw [if_neg (fun h => hx (hr.mp h))]
        simp [hx]

open Classical in
theorem locatePoint_boundary_iff {context : Context K} (hc : context.Exact) (c : Region K)
    (p : Point K) : region.locatePoint c p context = .boundary ↔ p ∈ c.pts := by
  unfold region.locatePoint region.locatePointIndexed
  rw [hc.contourSegments]
  exact (locateLoop_eq hc p c.edgeList 0 false).1

open Classical in
theorem locatePoint_of_not_mem {context : Context K} (hc : context.Exact) (c : Region K)
    {p : Point K} (hp : p ∉ c.pts) {d : Point K} (hd : IsDirection d) :
    region.locatePoint c p context =
      if Even (c.edgeList.countP (fun s => decide (HalfCross p d s.start s.finish)))
      then .exterior else .interior := by
  unfold region.locatePoint region.locatePointIndexed
  rw [hc.contourSegments, (locateLoop_eq hc p c.edgeList 0 false).2 hp]
  have := even_halfCross (c := c) rightward_isDirection hd hp
  rw [if_congr this.symm rfl rfl]
  split_ifs <;> simp_all

/-- Crossing in the half-open sense is meeting the ray, when the endpoints are not on the ray. -/
theorem halfCross_iff_meets {p d : Point K} {e : Segment K} (hp : p ∉ e.pts)
    (hs : e.start ∉ ray p d) (hf : e.finish ∉ ray p d) (hd : IsDirection d) :
    HalfCross p d e.start e.finish ↔ (e.pts ∩ ray p d).Nonempty := by
  obtain ⟨a, b⟩ := e
  simp only at *
  have hx := side_identity_x p d a b
  have hy := side_identity_y p d a b
  -- a point of the line which is not on the ray is not even the start of the ray
  have onLine : ∀ v, side p d v = 0 → ∃ t : K, v = ⟨p.x + t * d.x, p.y + t * d.y⟩ := by
    intro v hv
    simp only [side] at hv
    by_cases h : d.x = 0
    · have h' : d.y ≠ 0 := hd.resolve_left (not_not.mpr h)
      refine ⟨(v.y - p.y) / d.y, Point.ext ?_ ?_⟩
      · have : d.y * (v.x - p.x) = 0 := by rw [h] at hv; linear_combination -hv
        have := (mul_eq_zero.mp this).resolve_left h'
        simp only [h, mul_zero]; linear_combination this
      · simp only; field_simp; ring
    · refine ⟨(v.x - p.x) / d.x, Point.ext ?_ ?_⟩
      · simp only; field_simp; ring
      · simp only; field_simp; linear_combination hv
  have meet : ∀ a b : Point K, side p d a < side p d b → side p d a ≤ 0 → 0 ≤ side p d b →
      0 ≤ cross p a b → ((⟨a, b⟩ : Segment K).pts ∩ ray p d).Nonempty := by
    intro a b hlt ha hb hX
    have hx := side_identity_x p d a b
    have hy := side_identity_y p d a b
    have hD : 0 < side p d b - side p d a := sub_pos.mpr hlt
    refine ⟨lerp a b (-side p d a / (side p d b - side p d a)), ⟨_, ?_, ?_, rfl⟩,
      ⟨cross p a b / (side p d b - side p d a), ?_, ?_⟩⟩
    · apply div_nonneg _ hD.le; linarith
    · rw [div_le_one hD]; linarith
    · exact div_nonneg hX hD.le
    · apply Point.ext
      · simp only [lerp]; field_simp; linear_combination -hx
      · simp only [lerp]; field_simp; linear_combination -hy
  constructor
  · rintro (⟨h1, h2, h3⟩ | ⟨h1, h2, h3⟩)
    · exact meet a b (by linarith [not_lt.mp h1]) (not_lt.mp h1) h2.le h3.le
    · have := meet b a (by linarith [not_lt.mp h1]) (not_lt.mp h1) h2.le
        (by rw [cross_swap]; linarith)
      rwa [← Segment.pts_reverse] at this
  · rintro ⟨q, ⟨u, u0, u1, rfl⟩, t, t0, hq⟩
    simp only at hq
    have hq1 : a.x + u * (b.x - a.x) = p.x + t * d.x := congrArg Point.x hq
    have hq2 : a.y + u * (b.y - a.y) = p.y + t * d.y := congrArg Point.y hq
    have hu0 : u ≠ 0 := by
      rintro rfl; exact hs ⟨t, t0, by rw [← hq, lerp_zero]⟩
    have hu1 : u ≠ 1 := by
      rintro rfl; exact hf ⟨t, t0, by rw [← hq, lerp_one]⟩
    have u0' : 0 < u := lt_of_le_of_ne u0 (Ne.symm hu0)
    have u1' : 0 < 1 - u := by
      have := lt_of_le_of_ne u1 hu1; linarith
    have ht : t ≠ 0 := by
      rintro rfl
      apply hp
      refine ⟨u, u0, u1, ?_⟩
      rw [hq]; simp
    have t0' : 0 < t := lt_of_le_of_ne t0 (Ne.symm ht)
    -- the meeting point lies on the line
    have hside : (1 - u) * side p d a + u * side p d b = 0 := by
      simp only [side]; linear_combination d.x * hq2 - d.y * hq1
    have hXt : cross p a b = t * (side p d b - side p d a) := by
      simp only [side, cross]
      linear_combination (b.y - a.y) * hq1 - (b.x - a.x) * hq2
    rcases lt_trichotomy (side p d a) 0 with ha | ha | ha
    · have hb : 0 < side p d b := by
        by_contra hb
        have := mul_neg_of_pos_of_neg u1' ha
        have := mul_nonpos_of_nonneg_of_nonpos u0 (not_lt.mp hb)
        linarith
      left
      exact ⟨not_lt.mpr ha.le, hb, by rw [hXt]; exact mul_pos t0' (by linarith)⟩
    · -- everything lies on the line through `p`
      exfalso
      have hb : side p d b = 0 := by
        rw [ha] at hside
        have : u * side p d b = 0 := by linear_combination hside
        exact (mul_eq_zero.mp this).resolve_left hu0
      obtain ⟨ta, hta⟩ := onLine a ha
      obtain ⟨tb, htb⟩ := onLine b hb
      have ha' : ta < 0 := by
        by_contra h; exact hs ⟨ta, not_lt.mp h, hta⟩
      have hb' : tb < 0 := by
        by_contra h; exact hf ⟨tb, not_lt.mp h, htb⟩
      rw [hta, htb] at hq1 hq2
      simp only at hq1 hq2
      have e1 : ((1 - u) * ta + u * tb - t) * d.x = 0 := by linear_combination hq1
      have e2 : ((1 - u) * ta + u * tb - t) * d.y = 0 := by linear_combination hq2
      have e3 : (1 - u) * ta + u * tb - t = 0 := by
        rcases hd with h | h
        · exact (mul_eq_zero.mp e1).resolve_right h
        · exact (mul_eq_zero.mp e2).resolve_right h
      have := mul_neg_of_pos_of_neg u1' ha'
      have := mul_neg_of_pos_of_neg u0' hb'
      linarith
    · have hb : side p d b < 0 := by
        by_contra hb
        have := mul_pos u1' ha
        have := mul_nonneg u0 (not_lt.mp hb)
        linarith
      right
      exact ⟨not_lt.mpr hb.le, ha, by rw [hXt]; exact mul_neg_of_pos_of_neg t0' (by linarith)⟩

open Classical in
/-- The even-odd rule in every direction which avoids the vertices. -/
theorem locatePoint_eq_of_ray {context : Context K} (hc : context.Exact) (c : Region K)
    {p d : Point K} (hp : p ∉ c.pts) (hd : IsDirection d) (hv : AvoidsVertices c p d) :
    region.locatePoint c p context =
      if Even (edgesMeeting c (ray p d)) then .exterior else .interior := by
  rw [locatePoint_of_not_mem hc c hp hd]
  have : c.edgeList.countP (fun s => decide (HalfCross p d s.start s.finish))
      = edgesMeeting c (ray p d) := by
    unfold edgesMeeting
    apply List.countP_congr
    intro e he
    have hm := Contour.mem_vertices_of_mem_edgeList he
    simp only [decide_eq_true_eq]
    exact halfCross_iff_meets (fun h => hp ⟨e, he, h⟩) (hv _ hm.1) (hv _ hm.2) hd
  rw [this]

/-- There is a ray from a given point which avoids the vertices. -/
theorem exists_avoidsVertices (c : Contour K) {p : Point K} (hp : p ∉ c.vertices) :
    ∃ d, IsDirection d ∧ AvoidsVertices c p d := by
  classical
  have : Infinite K := NoMaxOrder.infinite
  obtain ⟨s, hs⟩ := Infinite.exists_notMem_finset
    (c.vertices.toFinset.image (fun v => (v.y - p.y) / (v.x - p.x)))
  refine ⟨⟨1, s⟩, Or.inl one_ne_zero, ?_⟩
  rintro v hv ⟨t, t0, hvt⟩
  apply hs
  rw [Finset.mem_image]
  refine ⟨v, List.mem_toFinset.mpr hv, ?_⟩
  have ht : t ≠ 0 := by
    rintro rfl
    apply hp
    have : v = p := by rw [hvt]; simp
    rwa [← this]
  rw [hvt]
  simp only [mul_one, add_sub_cancel_left]
  exact mul_div_cancel_left₀ s ht

end Orient
