import Verif.Spec.Linear
import Verif.Lemmas.SegmentsRel

/-! Finite unions of segments near a point. -/

set_option linter.unusedSectionVars false

namespace Orient

variable {K : Type} [Field K] [LinearOrder K] [IsStrictOrderedRing K]

theorem lerp_mem_pts {s : Segment K} {p q : Point K} (hp : p ∈ s.pts) (hq : q ∈ s.pts) {t : K}
    (h0 : 0 ≤ t) (h1 : t ≤ 1) : lerp p q t ∈ s.pts := by
  obtain ⟨a, a0, a1, rfl⟩ := hp
  obtain ⟨b, b0, b1, rfl⟩ := hq
  rw [lerp_lerp]
  refine ⟨a + t * (b - a), ?_, ?_, rfl⟩
  · nlinarith [mul_nonneg h0 b0, mul_nonneg (sub_nonneg.mpr h1) a0]
  · nlinarith [mul_nonneg h0 (sub_nonneg.mpr b1), mul_nonneg (sub_nonneg.mpr h1) (sub_nonneg.mpr a1)]

theorem Segment.pts_subset {s : Segment K} {p q : Point K} (hp : p ∈ s.pts) (hq : q ∈ s.pts) :
    (⟨p, q⟩ : Segment K).pts ⊆ s.pts := by
  rintro _ ⟨t, h0, h1, rfl⟩
  exact lerp_mem_pts hp hq h0 h1

/-- Near `p` the way from `p` to `a` either runs in a given segment or avoids it. -/
theorem germ_dichotomy {p a : Point K} (h : p ≠ a) (t : Segment K) :
    (∃ e, 0 < e ∧ ∀ u, 0 < u → u ≤ e → lerp p a u ∉ t.pts) ∨
    (∃ e, 0 < e ∧ ∀ u, 0 ≤ u → u ≤ e → lerp p a u ∈ t.pts) := by
  by_cases hcol : cross p a t.start = 0 ∧ cross p a t.finish = 0
  · obtain ⟨α, hα⟩ := exists_lerp_of_cross_eq_zero h hcol.1
    obtain ⟨β, hβ⟩ := exists_lerp_of_cross_eq_zero h hcol.2
    have key : ∀ u, lerp p a u ∈ t.pts ↔ ∃ w, 0 ≤ w ∧ w ≤ 1 ∧ u = α + w * (β - α) := by
      intro u
      constructor
      · rintro ⟨w, h0, h1, hw⟩
        rw [hα, hβ, lerp_lerp] at hw
        exact ⟨w, h0, h1, lerp_injective h hw⟩
      · rintro ⟨w, h0, h1, rfl⟩
        exact ⟨w, h0, h1, by rw [hα, hβ, lerp_lerp]⟩
    have key' : ∀ u, lerp p a u ∈ t.pts ↔ min α β ≤ u ∧ u ≤ max α β := by
      intro u
      rw [key]
      constructor
      · rintro ⟨w, h0, h1, rfl⟩
        rcases le_total α β with hab | hab
        · rw [min_eq_left hab, max_eq_right hab]
          constructor <;> nlinarith
        · rw [min_eq_right hab, max_eq_left hab]
          constructor <;> nlinarith
      · rintro ⟨h0, h1⟩
        rcases eq_or_ne α β with rfl | hne
        · rw [min_self] at h0; rw [max_self] at h1
          exact ⟨0, le_rfl, zero_le_one, by rw [le_antisymm h1 h0]; ring⟩
        · have hd : β - α ≠ 0 := sub_ne_zero.mpr hne.symm
          refine ⟨(u - α) / (β - α), ?_, ?_, by field_simp; ring⟩
          · rcases le_total α β with hab | hab
            · rw [min_eq_left hab] at h0
              exact div_nonneg (by linarith) (by linarith)
            · rw [max_eq_left hab] at h1
              exact div_nonneg_of_nonpos (by linarith) (by linarith)
          · rcases lt_or_gt_of_ne hne with hab | hab
            · rw [div_le_one (by linarith)]
              rw [max_eq_right hab.le] at h1; linarith
            · rw [div_le_one_of_neg (by linarith)]
              rw [min_eq_right hab.le] at h0; linarith
    by_cases h1 : min α β ≤ 0
    · by_cases h2 : 0 < max α β
      · right
        exact ⟨_, h2, fun u u0 u1 => (key' u).mpr ⟨h1.trans u0, u1⟩⟩
      · left
        refine ⟨1, one_pos, fun u u0 _ hu => ?_⟩
        exact h2 (u0.trans_le ((key' u).mp hu).2)
    · left
      push Not at h1
      refine ⟨min α β / 2, by linarith, fun u _ u1 hu => ?_⟩
      have := ((key' u).mp hu).1
      linarith
  · left
    have uniq : ∀ u w, lerp p a u ∈ t.pts → lerp p a w ∈ t.pts → u = w := by
      intro u w hu hw
      by_contra hne
      apply hcol
      have hne' : lerp p a u ≠ lerp p a w := fun e => hne (lerp_injective h e)
      by_cases ht : t.start = t.finish
      · exfalso
        apply hne'
        obtain ⟨x, -, -, hx⟩ := hu
        obtain ⟨y, -, -, hy⟩ := hw
        rw [hx, hy, ht]
        simp [lerp]
      have e := cross_eq_zero_iff_of_collinear ht hne' (Segment.cross_eq_zero hu)
        (Segment.cross_eq_zero hw)
      have e2 := cross_eq_zero_iff_of_collinear h hne' (cross_lerp_self p a u)
        (cross_lerp_self p a w)
      exact ⟨(e2 _).mp ((e _).mpr (cross_self_right _ _)), (e2 _).mp ((e _).mpr (cross_same _ _))⟩
    by_cases hex : ∃ u, 0 < u ∧ lerp p a u ∈ t.pts
    · obtain ⟨u, u0, hu⟩ := hex
      refine ⟨u / 2, by linarith, fun w w0 w1 hw => ?_⟩
      have := uniq u w hu hw
      linarith
    · exact ⟨1, one_pos, fun u u0 _ hu => hex ⟨u, u0, hu⟩⟩

/-- A way covered by finitely many segments runs in one of them near its beginning. -/
theorem exists_germ {p a : Point K} (h : p ≠ a) :
    ∀ (l : List (Segment K)) {e : K}, 0 < e →
      (∀ u, 0 < u → u ≤ e → lerp p a u ∈ segsPts l) →
      ∃ t ∈ l, ∃ e', 0 < e' ∧ e' ≤ e ∧ ∀ u, 0 ≤ u → u ≤ e' → lerp p a u ∈ t.pts := by
  intro l
  induction l with
  | nil =>
    intro e he hc
    obtain ⟨t, ht, -⟩ := hc e he le_rfl
    simp at ht
  | cons t l ih =>
    intro e he hc
    rcases germ_dichotomy h t with ⟨d, hd, h'⟩ | ⟨d, hd, h'⟩
    · obtain ⟨t', ht', e', he', hle, h''⟩ := ih (e := min d e) (lt_min hd he) (by
        intro u u0 u1
        obtain ⟨t', ht', hm⟩ := hc u u0 (u1.trans (min_le_right _ _))
        rcases List.mem_cons.mp ht' with rfl | ht'
        · exact (h' u u0 (u1.trans (min_le_left _ _)) hm).elim
        · exact ⟨t', ht', hm⟩)
      exact ⟨t', List.mem_cons_of_mem _ ht', e', he', hle.trans (min_le_right _ _), h''⟩
    · refine ⟨t, by simp, min d e, lt_min hd he, min_le_right _ _, fun u u0 u1 =>
        h' u u0 (u1.trans (min_le_left _ _))⟩

/-- A segment covered by finitely many segments starts inside one of them. -/
theorem exists_germ_of_subset {p a : Point K} (h : p ≠ a) {l : List (Segment K)}
    (hs : (⟨p, a⟩ : Segment K).pts ⊆ segsPts l) :
    ∃ t ∈ l, ∃ b, b ≠ p ∧ b ∈ (⟨p, a⟩ : Segment K).pts ∧ p ∈ t.pts ∧ b ∈ t.pts := by
  obtain ⟨t, ht, e, he, hle, hm⟩ := exists_germ h l one_pos (fun u u0 u1 => hs ⟨u, u0.le, u1, rfl⟩)
  refine ⟨t, ht, lerp p a e, ?_, ⟨e, he.le, hle, rfl⟩, ?_, hm e he.le le_rfl⟩
  · intro e'
    have : lerp p a e = lerp p a 0 := by rw [e', lerp_zero]
    exact he.ne' (lerp_injective h this)
  · have := hm 0 le_rfl he.le
    rwa [lerp_zero] at this

theorem subset_segsPts {t : Segment K} {l : List (Segment K)} (h : t ∈ l) : t.pts ⊆ segsPts l :=
  fun _ hp => ⟨t, h, hp⟩

/-- Finite unions of segments share a piece with a segment iff one of the segments does. -/
theorem sharesPiece_iff (s : Segment K) (l : List (Segment K)) :
    SharesPiece s.pts (segsPts l) ↔ ∃ t ∈ l, (s.pts ∩ t.pts).Nontrivial := by
  constructor
  · rintro ⟨⟨p, a⟩, hu, h1, h2⟩
    obtain ⟨t, ht, b, hb, hb', hp, hbt⟩ := exists_germ_of_subset hu h2
    exact ⟨t, ht, p, ⟨h1 (Segment.start_mem _), hp⟩, b, ⟨h1 hb', hbt⟩, hb.symm⟩
  · rintro ⟨t, ht, p, hp, q, hq, hne⟩
    exact ⟨⟨p, q⟩, hne, Segment.pts_subset hp.1 hq.1,
      (Segment.pts_subset hp.2 hq.2).trans (subset_segsPts ht)⟩

/-- Two finite unions of segments share a piece iff two of the segments do. -/
theorem sharesPiece_segs_iff (l m : List (Segment K)) :
    SharesPiece (segsPts l) (segsPts m) ↔ ∃ s ∈ l, ∃ t ∈ m, (s.pts ∩ t.pts).Nontrivial := by
  constructor
  · rintro ⟨⟨p, a⟩, hu, h1, h2⟩
    obtain ⟨s, hs, b, hb, hb', hp, hbs⟩ := exists_germ_of_subset hu h1
    have hsub : (⟨p, b⟩ : Segment K).pts ⊆ segsPts m :=
      (Segment.pts_subset (Segment.start_mem _) hb').trans h2
    obtain ⟨t, ht, c, hc, hc', hp', hct⟩ := exists_germ_of_subset hb.symm hsub
    exact ⟨s, hs, t, ht, p, ⟨hp, hp'⟩, c, ⟨Segment.pts_subset hp hbs hc', hct⟩, hc.symm⟩
  · rintro ⟨s, hs, t, ht, p, hp, q, hq, hne⟩
    exact ⟨⟨p, q⟩, hne, (Segment.pts_subset hp.1 hq.1).trans (subset_segsPts hs),
      (Segment.pts_subset hp.2 hq.2).trans (subset_segsPts ht)⟩

/-- The same for coverings up to finitely many points. -/
theorem exists_germ_cofinite {p a : Point K} (h : p ≠ a) {l : List (Segment K)}
    {F : List (Point K)} (hs : ∀ x ∈ (⟨p, a⟩ : Segment K).pts, x ∈ segsPts l ∨ x ∈ F) :
    ∃ t ∈ l, ∃ b, b ≠ p ∧ b ∈ (⟨p, a⟩ : Segment K).pts ∧ p ∈ t.pts ∧ b ∈ t.pts := by
  obtain ⟨t, ht, b, hb, hb', hp, hbt⟩ := exists_germ_of_subset h
    (l := l ++ F.map (fun q => (⟨q, q⟩ : Segment K))) (by
      intro x hx
      rcases hs x hx with ⟨t, ht, hm⟩ | hF
      · exact ⟨t, by simp [ht], hm⟩
      · exact ⟨⟨x, x⟩, by simp [hF], Segment.start_mem _⟩)
  rcases List.mem_append.mp ht with ht | ht
  · exact ⟨t, ht, b, hb, hb', hp, hbt⟩
  · exfalso
    obtain ⟨q, -, rfl⟩ := List.mem_map.mp ht
    obtain ⟨u, -, -, hu⟩ := hp
    obtain ⟨w, -, -, hw⟩ := hbt
    apply hb
    rw [hu, hw]
    simp [lerp]

/-- A segment covered up to finitely many points is covered. -/
theorem subset_of_cofinite {s : Segment K} (h : s.Nondegenerate) {l : List (Segment K)}
    {F : List (Point K)} (hs : ∀ x ∈ s.pts, x ∈ segsPts l ∨ x ∈ F) : s.pts ⊆ segsPts l := by
  intro x hx
  obtain ⟨a, ha, hne⟩ : ∃ a ∈ s.pts, x ≠ a := by
    by_cases e : x = s.start
    · exact ⟨_, s.finish_mem, fun e' => h (e.symm.trans e')⟩
    · exact ⟨_, s.start_mem, e⟩
  obtain ⟨t, ht, -, -, -, hm, -⟩ := exists_germ_cofinite hne (l := l) (F := F)
    (fun y hy => hs y (Segment.pts_subset hx ha hy))
  exact ⟨t, ht, hm⟩

/-- The part of a segment between two of its points. -/
theorem Segment.mem_sub_iff {s : Segment K} {a b : Point K} (ha : a ∈ s.pts) (hb : b ∈ s.pts)
    (hab : a < b) (x : Point K) :
    x ∈ (⟨a, b⟩ : Segment K).pts ↔ x ∈ s.pts ∧ a ≤ x ∧ x ≤ b := by
  have hs : s.start ≠ s.finish := by
    intro e
    obtain ⟨u, -, -, hu⟩ := ha
    obtain ⟨w, -, -, hw⟩ := hb
    apply hab.ne
    rw [hu, hw, e]
    simp [lerp]
  rw [mem_pts_iff_of_lt (s := ⟨a, b⟩) hab]
  have := cross_eq_zero_iff_of_collinear hs hab.ne (cross_eq_zero ha) (cross_eq_zero hb) x
  simp only
  rw [this, mem_pts_iff s x]
  constructor
  · rintro ⟨h1, h2, h3⟩
    exact ⟨⟨h1, (lo_le ha).trans h2, h3.trans (le_hi hb)⟩, h2, h3⟩
  · rintro ⟨h1, h2, h3⟩
    exact ⟨h1.1, h2, h3⟩

/-! ### uniqueness of the relation of a segment to a linear set -/

theorem SharesPiece.inter_nonempty {S T : Set (Point K)} (h : SharesPiece S T) :
    (S ∩ T).Nonempty := by
  obtain ⟨u, -, h1, h2⟩ := h
  exact ⟨u.start, h1 u.start_mem, h2 u.start_mem⟩

theorem Segment.CrossedBy.inter_nonempty {s : Segment K} {M : Set (Point K)} (h : s.CrossedBy M) :
    (s.pts ∩ M).Nonempty := by
  obtain ⟨p, a, b, hp, -, ha, -⟩ := h
  exact ⟨p, hp, ha (Segment.start_mem _)⟩

theorem LinearRel.unique {s : Segment K} (hs : s.Nondegenerate) {l : List (Segment K)}
    (hl : ∀ t ∈ l, t.Nondegenerate) (hne : l ≠ [])
    {r r' : Relation} (h : LinearRel s (segsPts l) r)
    (h' : LinearRel s (segsPts l) r') : r = r' := by
  obtain ⟨t, ht⟩ := List.exists_mem_of_ne_nil l hne
  have hM : t.pts ⊆ segsPts l := subset_segsPts ht
  have eSub : s.pts ⊆ segsPts l → SharesPiece s.pts (segsPts l) := fun h => ⟨s, hs, le_rfl, h⟩
  have eSup : segsPts l ⊆ s.pts → SharesPiece s.pts (segsPts l) :=
    fun h => ⟨t, hl t ht, hM.trans h, hM⟩
  have eI : SharesPiece s.pts (segsPts l) → s.pts ∩ segsPts l ≠ ∅ :=
    fun h => h.inter_nonempty.ne_empty
  have eC : s.CrossedBy (segsPts l) → s.pts ∩ segsPts l ≠ ∅ := fun h => h.inter_nonempty.ne_empty
  have eN : (s.pts ∩ segsPts l).Nonempty → s.pts ∩ segsPts l ≠ ∅ := fun h => h.ne_empty
  have form : ∀ {r}, LinearRel s (segsPts l) r →
      (r = .equal ∧ s.pts ⊆ segsPts l ∧ segsPts l ⊆ s.pts) ∨
      (r = .component ∧ s.pts ⊆ segsPts l ∧ ¬ segsPts l ⊆ s.pts) ∨
      (r = .composite ∧ ¬ s.pts ⊆ segsPts l ∧ segsPts l ⊆ s.pts) ∨
      (r = .overlap ∧ ¬ s.pts ⊆ segsPts l ∧ ¬ segsPts l ⊆ s.pts ∧ SharesPiece s.pts (segsPts l)) ∨
      (r = .cross ∧ ¬ SharesPiece s.pts (segsPts l) ∧ s.CrossedBy (segsPts l)) ∨
      (r = .touch ∧ ¬ SharesPiece s.pts (segsPts l) ∧ ¬ s.CrossedBy (segsPts l) ∧
        s.pts ∩ segsPts l ≠ ∅) ∨
      (r = .disjoint ∧ s.pts ∩ segsPts l = ∅) := by
    intro r h
    cases r <;> simp only [LinearRel] at h
    · simp [h]
    · simp [h.1, h.2.1, eN h.2.2]
    · simp [h]
    · simp [h]
    · simp [h.1, h.2]
    · simp [h]
    · simp [h.1, h.2]
  have f := form h
  have f' := form h'
  clear form h h' hl ht eN hne
  simp only [ne_eq] at eI eC f f'
  generalize SharesPiece s.pts (segsPts l) = P at *
  generalize s.CrossedBy (segsPts l) = Q at *
  generalize (s.pts ∩ segsPts l = ∅) = E at *
  generalize (s.pts ⊆ segsPts l) = A at *
  generalize (segsPts l ⊆ s.pts) = B at *
  rcases f with f | f | f | f | f | f | f <;> rcases f' with f' | f' | f' | f' | f' | f' | f' <;>
    first
    | exact f.1.trans f'.1.symm
    | (exfalso; tauto)

end Orient
