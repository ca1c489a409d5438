import Verif.Lemmas.Germ

/-! Pieces which leave an inner point of a segment to its sides. -/

set_option linter.unusedSectionVars false

namespace Orient

variable {K : Type} [Field K] [LinearOrder K] [IsStrictOrderedRing K]

namespace Segment

/-- An inner point of a segment. -/
def Inner (s : Segment K) (p : Point K) : Prop := p ∈ s.pts ∧ ¬ s.IsEndpoint p

/-- `t` goes from `p` to the left of `s` (directed from its least to its greatest point). -/
def Up (s t : Segment K) (p : Point K) : Prop := p ∈ t.pts ∧ ∃ a ∈ t.pts, 0 < cross s.lo s.hi a

/-- `t` goes from `p` to the right of `s`. -/
def Down (s t : Segment K) (p : Point K) : Prop := p ∈ t.pts ∧ ∃ a ∈ t.pts, cross s.lo s.hi a < 0

/-- Pieces go from an inner point of `s` to both sides. -/
def Crossed (s : Segment K) (l : List (Segment K)) : Prop :=
  ∃ p, s.Inner p ∧ (∃ t ∈ l, s.Up t p) ∧ ∃ t ∈ l, s.Down t p

theorem cross_lo_hi (s : Segment K) :
    (∀ a, cross s.lo s.hi a = cross s.start s.finish a) ∨
    (∀ a, cross s.lo s.hi a = - cross s.start s.finish a) := by
  unfold lo hi
  rcases le_total s.start s.finish with h | h
  · left; intro a; rw [min_eq_left h, max_eq_right h]
  · right; intro a; rw [min_eq_right h, max_eq_left h, cross_flip]

theorem cross_lo_hi_eq_zero (s : Segment K) (a : Point K) :
    cross s.lo s.hi a = 0 ↔ cross s.start s.finish a = 0 := by
  rcases s.cross_lo_hi with h | h <;> rw [h]
  exact neg_eq_zero

theorem goes_of_germ {s : Segment K} {l : List (Segment K)} {p a : Point K} (hp : p ∈ s.pts)
    (ha : cross s.lo s.hi a ≠ 0) (hs : (⟨p, a⟩ : Segment K).pts ⊆ segsPts l) :
    ∃ t ∈ l, p ∈ t.pts ∧ ∃ b ∈ t.pts,
      (0 < cross s.lo s.hi a → 0 < cross s.lo s.hi b) ∧
      (cross s.lo s.hi a < 0 → cross s.lo s.hi b < 0) := by
  have hp0 : cross s.lo s.hi p = 0 := (s.cross_lo_hi_eq_zero p).mpr (cross_eq_zero hp)
  have hne : p ≠ a := by rintro rfl; exact ha hp0
  obtain ⟨t, ht, b, hb, ⟨u, u0, u1, rfl⟩, h1, h2⟩ := exists_germ_of_subset hne hs
  have upos : 0 < u := by
    rcases u0.lt_or_eq with h | h
    · exact h
    · exact absurd (by rw [← h]; exact lerp_zero _ _) hb
  refine ⟨t, ht, h1, _, h2, ?_, ?_⟩
  · intro h; rw [cross_lerp, hp0]; simp only [zero_add, sub_zero]; exact mul_pos upos h
  · intro h; rw [cross_lerp, hp0]; simp only [zero_add, sub_zero]; exact mul_neg_of_pos_of_neg upos h

theorem crossedBy_iff (s : Segment K) (l : List (Segment K)) :
    s.CrossedBy (segsPts l) ↔ s.Crossed l := by
  have sub : ∀ {t : Segment K} {p a : Point K}, t ∈ l → p ∈ t.pts → a ∈ t.pts →
      (⟨p, a⟩ : Segment K).pts ⊆ segsPts l := fun ht hp ha =>
    (pts_subset hp ha).trans (subset_segsPts ht)
  constructor
  · rintro ⟨p, a, b, hp, hn, ha, hb, h1, h2⟩
    have hal := fun h => goes_of_germ (a := a) hp h ha
    have hbl := fun h => goes_of_germ (a := b) hp h hb
    rcases s.cross_lo_hi with e | e
    · rw [← e] at h1 h2
      obtain ⟨t, ht, m, c, hc, k, -⟩ := hal h1.ne'
      obtain ⟨t', ht', m', c', hc', -, k'⟩ := hbl h2.ne
      exact ⟨p, ⟨hp, hn⟩, ⟨t, ht, m, c, hc, k h1⟩, ⟨t', ht', m', c', hc', k' h2⟩⟩
    · have h1' : cross s.lo s.hi a < 0 := by rw [e]; linarith
      have h2' : 0 < cross s.lo s.hi b := by rw [e]; linarith
      obtain ⟨t, ht, m, c, hc, -, k⟩ := hal h1'.ne
      obtain ⟨t', ht', m', c', hc', k', -⟩ := hbl h2'.ne'
      exact ⟨p, ⟨hp, hn⟩, ⟨t', ht', m', c', hc', k' h2'⟩, ⟨t, ht, m, c, hc, k h1'⟩⟩
  · rintro ⟨p, ⟨hp, hn⟩, ⟨t, ht, m, a, ha, h1⟩, ⟨t', ht', m', b, hb, h2⟩⟩
    rcases s.cross_lo_hi with e | e <;> rw [e] at h1 h2
    · exact ⟨p, a, b, hp, hn, sub ht m ha, sub ht' m' hb, h1, h2⟩
    · exact ⟨p, b, a, hp, hn, sub ht' m' hb, sub ht m ha, by linarith, by linarith⟩

theorem crossedBy_reverse (s : Segment K) (M : Set (Point K)) :
    s.reverse.CrossedBy M ↔ s.CrossedBy M := by
  have key : ∀ s : Segment K, s.CrossedBy M → s.reverse.CrossedBy M := by
    rintro s ⟨p, a, b, hp, hn, ha, hb, h1, h2⟩
    refine ⟨p, b, a, by rw [pts_reverse]; exact hp, by rw [isEndpoint_reverse]; exact hn, hb, ha,
      ?_, ?_⟩ <;> simp only [reverse] <;> rw [cross_flip] <;> linarith
  exact ⟨fun h => key _ h, key s⟩

theorem nondegenerate_lo_hi {s : Segment K} (hs : s.Nondegenerate) :
    (⟨s.lo, s.hi⟩ : Segment K).pts = s.pts := by
  ext p
  rw [mem_pts_iff_of_lt (s := ⟨s.lo, s.hi⟩) (lo_lt_hi hs), mem_pts_iff_lo_hi hs]

/-- Collinear segments with a common point which is an inner point of one of them overlap. -/
theorem Collinear.nontrivial_of_inner {s t : Segment K} (hs : s.Nondegenerate)
    (ht : t.Nondegenerate) (h : s.Collinear t) {p : Point K} (hp : s.Inner p) (hpt : p ∈ t.pts) :
    (s.pts ∩ t.pts).Nontrivial := by
  have hp0 := cross_eq_zero hp.1
  have h1 := lo_le hp.1
  have h2 := le_hi hp.1
  have h3 := lo_le hpt
  have h4 := le_hi hpt
  have hn := hp.2
  rw [isEndpoint_iff] at hn
  push Not at hn
  have h1' : s.lo < p := lt_of_le_of_ne h1 hn.1.symm
  have h2' : p < s.hi := lt_of_le_of_ne h2 hn.2
  rcases h4.lt_or_eq with h4' | h4'
  · refine ⟨p, ⟨hp.1, hpt⟩, min s.hi t.hi, ?_, (lt_min h2' h4').ne⟩
    rw [h.mem_inter_iff hs ht]
    refine ⟨?_, ?_, le_rfl⟩
    · rcases min_choice s.hi t.hi with e | e <;> rw [e]
      · exact cross_eq_zero s.hi_mem
      · exact cross_hi h
    · exact (max_le h1 h3).trans (le_min h2 h4)
  · have h3' : t.lo < p := lt_of_lt_of_eq (lo_lt_hi ht) h4'.symm
    refine ⟨p, ⟨hp.1, hpt⟩, max s.lo t.lo, ?_, (max_lt h1' h3').ne'⟩
    rw [h.mem_inter_iff hs ht]
    refine ⟨?_, le_rfl, ?_⟩
    · rcases max_choice s.lo t.lo with e | e <;> rw [e]
      · exact cross_eq_zero s.lo_mem
      · exact cross_lo h
    · exact (max_le h1 h3).trans (le_min h2 h4)

/-- A segment which crosses another one at inner points goes to both of its sides. -/
theorem goes_of_cross {s t : Segment K} (hs : s.Nondegenerate) (ht : t.Nondegenerate)
    (h : SegmentsRel s t .cross) : ∃ p, s.Inner p ∧ s.Up t p ∧ s.Down t p := by
  obtain ⟨p, hp, h1, h2⟩ := h
  have hps : p ∈ s.pts ∩ t.pts := by rw [hp]; rfl
  have hcol : ¬ s.Collinear t := by
    intro hc
    have := hc.nontrivial_of_inner hs ht ⟨hps.1, h1⟩ hps.2
    rw [hp] at this
    exact Set.not_nontrivial_singleton this
  have hsg := strict_signs_of_mem_inter hcol hps.1 hps.2 h2
  have : cross s.lo s.hi t.start * cross s.lo s.hi t.finish < 0 := by
    rcases s.cross_lo_hi with e | e <;> rw [e, e]
    · exact hsg
    · rw [neg_mul_neg]; exact hsg
  refine ⟨p, ⟨hps.1, h1⟩, ?_⟩
  rcases mul_neg_iff.mp this with ⟨a, b⟩ | ⟨a, b⟩
  · exact ⟨⟨hps.2, _, t.start_mem, a⟩, ⟨hps.2, _, t.finish_mem, b⟩⟩
  · exact ⟨⟨hps.2, _, t.finish_mem, b⟩, ⟨hps.2, _, t.start_mem, a⟩⟩

/-- A segment which touches another one at an inner point of the latter goes to the side of its
other endpoint only. -/
theorem goes_of_touch {s : Segment K} (hs : s.Nondegenerate) {p n : Point K}
    (hpn : p ≠ n) (hp : s.Inner p) (hsub : (s.pts ∩ (⟨p, n⟩ : Segment K).pts).Subsingleton) :
    cross s.lo s.hi n ≠ 0 ∧
    (s.Up ⟨p, n⟩ p ↔ 0 < cross s.lo s.hi n) ∧ (s.Down ⟨p, n⟩ p ↔ cross s.lo s.hi n < 0) := by
  have hp0 : cross s.lo s.hi p = 0 := (s.cross_lo_hi_eq_zero p).mpr (cross_eq_zero hp.1)
  refine ⟨?_, ?_, ?_⟩
  · intro h0
    have hcol : s.Collinear ⟨p, n⟩ :=
      ⟨cross_eq_zero hp.1, (s.cross_lo_hi_eq_zero n).mp h0⟩
    exact Set.not_subsingleton_iff.mpr
      (hcol.nontrivial_of_inner hs (show Nondegenerate ⟨p, n⟩ from hpn) hp (start_mem _)) hsub
  · constructor
    · rintro ⟨-, a, ⟨u, u0, u1, rfl⟩, ha⟩
      simp only at ha
      rw [cross_lerp, hp0] at ha
      simp only [zero_add, sub_zero] at ha
      exact pos_of_mul_pos_right ha u0
    · intro h
      exact ⟨start_mem _, n, finish_mem _, h⟩
  · constructor
    · rintro ⟨-, a, ⟨u, u0, u1, rfl⟩, ha⟩
      simp only at ha
      rw [cross_lerp, hp0] at ha
      simp only [zero_add, sub_zero] at ha
      by_contra hn
      push Not at hn
      have := mul_nonneg u0 hn
      linarith
    · intro h
      exact ⟨start_mem _, n, finish_mem _, h⟩

end Segment

end Orient
