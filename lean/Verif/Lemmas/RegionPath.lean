import Verif.Lemmas.Region
import Verif.Lemmas.Transversal

/-! How the location of a point with respect to a region changes along a segment. -/

set_option linter.unusedSectionVars false
set_option linter.unusedSimpArgs false

namespace Orient

variable {K : Type} [Field K] [LinearOrder K] [IsStrictOrderedRing K]

/-- The vector from `p` to `q`. -/
def direction (p q : Point K) : Point K := ⟨q.x - p.x, q.y - p.y⟩

theorem direction_isDirection {p q : Point K} (h : p ≠ q) : IsDirection (direction p q) := by
  by_contra hn
  unfold IsDirection direction at hn
  push Not at hn
  exact h (Point.ext (by linear_combination -hn.1) (by linear_combination -hn.2))

theorem side_direction (p q v : Point K) : side p (direction p q) v = cross p q v := rfl

theorem side_shift (p q v : Point K) : side q (direction p q) v = cross p q v := by
  simp only [side, direction, cross]; ring

theorem cross_shift (p q a b : Point K) :
    cross q a b = cross p a b - (cross p q b - cross p q a) := by
  simp only [cross]; ring

/-- If the half-open rules for `p` and `q` differ for an edge, the edge meets the way. -/
theorem meets_of_halfCross_ne {p q : Point K} {e : Segment K} (hp : p ∉ e.pts) (hq : q ∉ e.pts)
    (h : ¬ (HalfCross p (direction p q) e.start e.finish ↔
      HalfCross q (direction p q) e.start e.finish)) :
    (e.pts ∩ (⟨p, q⟩ : Segment K).pts).Nonempty := by
  obtain ⟨a, b⟩ := e
  simp only at *
  have key : ∀ a b : Point K, ¬ 0 < cross p q a → 0 < cross p q b → 0 < cross p a b →
      cross q a b < 0 → ((⟨a, b⟩ : Segment K).pts ∩ (⟨p, q⟩ : Segment K).pts).Nonempty := by
    intro a b ha hb hP hQ
    have hcol : ¬ (⟨p, q⟩ : Segment K).Collinear ⟨a, b⟩ := fun h => hb.ne' h.2
    have h1 : cross p q a * cross p q b ≤ 0 :=
      mul_nonpos_of_nonpos_of_nonneg (not_lt.mp ha) hb.le
    have h2 : cross a b p * cross a b q ≤ 0 := by
      rw [cross_rotate p a b, cross_rotate q a b]
      exact (mul_neg_of_pos_of_neg hP hQ).le
    obtain ⟨s, u, s0, s1, u0, u1, he, -, -⟩ := Segment.exists_mem_inter hcol h1 h2
    exact ⟨_, ⟨u, u0, u1, he⟩, ⟨s, s0, s1, rfl⟩⟩
  have hnp := cross_ne_zero_of_straddle (d := direction p q) hp
  have hnq := cross_ne_zero_of_straddle (d := direction p q) hq
  rw [side_direction, side_direction] at hnp
  rw [side_shift, side_shift] at hnq
  have hsh := cross_shift p q a b
  unfold HalfCross at h
  rw [side_direction, side_direction, side_shift, side_shift] at h
  by_cases ha : 0 < cross p q a <;> by_cases hb : 0 < cross p q b
  · simp [ha, hb] at h
  · simp only [ha, hb, not_true_eq_false, false_and, and_false, or_false, false_or,
      not_false_eq_true, true_and] at h
    have hlt : cross p a b < cross q a b := by linarith [not_lt.mp hb]
    have n1 := hnp (by simp [ha, hb])
    have n2 := hnq (by simp [ha, hb])
    have hP : cross p a b < 0 := by
      by_contra hP
      have hP' := n1.resolve_right hP
      exact h ⟨fun h => absurd h hP, fun h => absurd h (not_lt.mpr (hP'.trans hlt).le)⟩
    have hQ : 0 < cross q a b := n2.resolve_right (fun hQ => h ⟨fun _ => hQ, fun _ => hP⟩)
    have := key b a hb ha (by rw [cross_swap]; linarith) (by rw [cross_swap]; linarith)
    rwa [← Segment.pts_reverse ⟨b, a⟩] at this
  · simp only [ha, hb, not_true_eq_false, false_and, and_false, or_false, false_or,
      not_false_eq_true, true_and] at h
    have hlt : cross q a b < cross p a b := by linarith [not_lt.mp ha]
    have n2 := hnq (by simp [ha, hb])
    have hQ : cross q a b < 0 := by
      refine n2.resolve_left (fun hQ => ?_)
      exact h ⟨fun _ => hQ, fun _ => hQ.trans hlt⟩
    have hP : 0 < cross p a b := by
      by_contra hP
      exact h ⟨fun h => absurd h hP, fun h => absurd h (not_lt.mpr hQ.le)⟩
    exact key a b ha hb hP hQ
  · simp [ha, hb] at h

/-- If the edge meets the way between its own endpoints, the half-open rules for `p` and `q` differ. -/
theorem halfCross_ne_of_meets {p q : Point K} {e : Segment K} (hp : p ∉ e.pts) (hq : q ∉ e.pts)
    (hs : e.start ∉ (⟨p, q⟩ : Segment K).pts) (hf : e.finish ∉ (⟨p, q⟩ : Segment K).pts)
    (h : (e.pts ∩ (⟨p, q⟩ : Segment K).pts).Nonempty) :
    ¬ (HalfCross p (direction p q) e.start e.finish ↔
      HalfCross q (direction p q) e.start e.finish) := by
  obtain ⟨r, hr, hr'⟩ := h
  have hre : ¬ e.IsEndpoint r := by
    rintro (rfl | rfl)
    · exact hs hr'
    · exact hf hr'
  have hrp : ¬ (⟨p, q⟩ : Segment K).IsEndpoint r := by
    rintro (rfl | rfl)
    · exact hp hr
    · exact hq hr
  have hpq : p ≠ q := by
    rintro rfl
    obtain ⟨t, -, -, ht⟩ := hr'
    have : r = p := by rw [ht]; simp [lerp]
    exact hrp (Or.inl this)
  have hne : e.Nondegenerate := by
    intro he
    obtain ⟨t, -, -, ht⟩ := hr
    have : r = e.start := by rw [ht, ← he]; simp [lerp]
    exact hre (Or.inl this)
  have hcol : ¬ (⟨p, q⟩ : Segment K).Collinear e := by
    intro hcol
    have hi := (hcol.mem_inter_iff hpq hne r).mp ⟨hr', hr⟩
    have hlo : ¬ max (⟨p, q⟩ : Segment K).lo e.lo ≤ min (⟨p, q⟩ : Segment K).hi e.hi := by
      intro hle
      have hmem : max (⟨p, q⟩ : Segment K).lo e.lo ∈ (⟨p, q⟩ : Segment K).pts ∩ e.pts := by
        rw [hcol.mem_inter_iff hpq hne]
        refine ⟨?_, le_rfl, hle⟩
        rcases max_choice (⟨p, q⟩ : Segment K).lo e.lo with h | h <;> rw [h]
        · exact Segment.cross_lo (Segment.collinear_self _)
        · exact Segment.cross_lo hcol
      rcases max_choice (⟨p, q⟩ : Segment K).lo e.lo with h | h <;> rw [h] at hmem
      · have := (Segment.isEndpoint_iff (⟨p, q⟩ : Segment K) _).mpr (Or.inl rfl)
        rcases this with h' | h' <;> rw [h'] at hmem
        · exact hp hmem.2
        · exact hq hmem.2
      · have := (Segment.isEndpoint_iff e _).mpr (Or.inl rfl)
        rcases this with h' | h' <;> rw [h'] at hmem
        · exact hs hmem.1
        · exact hf hmem.1
    exact hlo (hi.2.1.trans hi.2.2)
  have s1 := Segment.strict_signs_of_mem_inter hcol hr' hr hre
  have s2 := Segment.strict_signs_of_mem_inter (Segment.not_collinear_symm (t := ⟨p, q⟩) hpq hne hcol) hr hr' hrp
  obtain ⟨a, b⟩ := e
  simp only at *
  rw [cross_rotate p a b, cross_rotate q a b] at s2
  unfold HalfCross
  rw [side_direction, side_direction, side_shift, side_shift]
  rcases mul_neg_iff.mp s1 with ⟨h1, h2⟩ | ⟨h1, h2⟩ <;>
    rcases mul_neg_iff.mp s2 with ⟨h3, h4⟩ | ⟨h3, h4⟩ <;>
    simp [h1, h2, h3, h4, not_lt.mpr h1.le, not_lt.mpr h2.le, not_lt.mpr h3.le, not_lt.mpr h4.le]

open Classical in
theorem countP_parity_diff {α : Type} (l : List α) (P Q R : α → Prop)
    (h : ∀ x ∈ l, ((P x ↔ Q x) ↔ ¬ R x)) :
    (Even (l.countP (fun x => decide (P x))) ↔ Even (l.countP (fun x => decide (Q x)))) ↔
      Even (l.countP (fun x => decide (R x))) := by
  induction l with
  | nil => simp
  | cons a l ih =>
    have ih := ih (fun x hx => h x (by simp [hx]))
    have h0 := h a (by simp)
    simp only [List.countP_cons, decide_eq_true_eq]
    by_cases hP : P a <;> by_cases hQ : Q a <;> by_cases hR : R a <;>
      simp only [hP, hQ, hR, if_true, if_false, Nat.even_add_one, Nat.add_zero] at h0 ⊢ <;> tauto

/-- Two points off the contour, joined by a segment which avoids the vertices, have the same location
iff the segment meets an even number of edges. -/
theorem locatePoint_eq_iff_even {context : Context K} (hc : context.Exact) (c : Region K)
    {p q : Point K} (hp : p ∉ c.pts) (hq : q ∉ c.pts)
    (hv : ∀ v ∈ c.vertices, v ∉ (⟨p, q⟩ : Segment K).pts) :
    region.locatePoint c p context = region.locatePoint c q context ↔
      Even (edgesMeeting c (⟨p, q⟩ : Segment K).pts) := by
  classical
  by_cases hpq : p = q
  · subst hpq
    simp only [true_iff]
    have : edgesMeeting c (⟨p, p⟩ : Segment K).pts = 0 := by
      unfold edgesMeeting
      rw [List.countP_eq_zero]
      rintro e he
      simp only [decide_eq_true_eq]
      rintro ⟨r, hr, t, -, -, ht⟩
      have : r = p := by rw [ht]; simp [lerp]
      exact hp ⟨e, he, this ▸ hr⟩
    rw [this]; exact ⟨0, rfl⟩
  have hd := direction_isDirection hpq
  rw [locatePoint_of_not_mem hc c hp hd, locatePoint_of_not_mem hc c hq hd]
  have key := countP_parity_diff c.edgeList
    (fun s => HalfCross p (direction p q) s.start s.finish)
    (fun s => HalfCross q (direction p q) s.start s.finish)
    (fun e => (e.pts ∩ (⟨p, q⟩ : Segment K).pts).Nonempty) ?_
  · unfold edgesMeeting
    rw [← key]
    split_ifs with h1 h2 h2 <;> simp only [h1, h2, iff_true, iff_false, reduceCtorEq, not_true_eq_false,
      not_false_eq_true]
  · intro e he
    have hm := Contour.mem_vertices_of_mem_edgeList he
    have hpe : p ∉ e.pts := fun h => hp ⟨e, he, h⟩
    have hqe : q ∉ e.pts := fun h => hq ⟨e, he, h⟩
    constructor
    · intro h h'
      exact halfCross_ne_of_meets hpe hqe (hv _ hm.1) (hv _ hm.2) h' h
    · intro h
      by_contra hn
      exact h (meets_of_halfCross_ne hpe hqe hn)

/-- The location is constant along a segment which avoids the contour. -/
theorem locatePoint_eq_of_disjoint {context : Context K} (hc : context.Exact) (c : Region K)
    {p q : Point K} (h : Disjoint (⟨p, q⟩ : Segment K).pts c.pts) :
    region.locatePoint c p context = region.locatePoint c q context := by
  have hn : ∀ r ∈ (⟨p, q⟩ : Segment K).pts, r ∉ c.pts := fun r hr hr' =>
    Set.disjoint_left.mp h hr hr'
  rw [locatePoint_eq_iff_even hc c (hn _ (Segment.start_mem _)) (hn _ (Segment.finish_mem _))
    (fun v hv hm => hn v hm (Contour.vertex_mem_pts hv))]
  have : edgesMeeting c (⟨p, q⟩ : Segment K).pts = 0 := by
    classical
    unfold edgesMeeting
    rw [List.countP_eq_zero]
    intro e he
    simp only [decide_eq_true_eq]
    rintro ⟨r, hr, hr'⟩
    exact hn r hr' ⟨e, he, hr⟩
  rw [this]; exact ⟨0, rfl⟩

end Orient
