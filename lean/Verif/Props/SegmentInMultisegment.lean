import Verif.Model.Planar
import Verif.Lemmas.SegmentInMultisegment
import Verif.Lemmas.Reference
import Verif.Lemmas.ValidCheck
import Mathlib.Algebra.Field.Rat
import Mathlib.Algebra.Order.Ring.Rat

/-! C04, C05, C06: `segment_in_multisegment`. -/

set_option linter.unusedSectionVars false

namespace Orient.Props

variable {K : Type} [Field K] [LinearOrder K] [IsStrictOrderedRing K]

open Segment multisegment

theorem segsPts_subset_iff {s : Segment K} {l : List (Segment K)} :
    segsPts l ⊆ s.pts ↔ ∀ t ∈ l, t.pts ⊆ s.pts :=
  ⟨fun h _ ht => (subset_segsPts ht).trans h, fun h _ ⟨t, ht, hp⟩ => h t ht hp⟩

theorem inter_segsPts_eq_empty_iff {s : Segment K} {l : List (Segment K)} :
    s.pts ∩ segsPts l = ∅ ↔ ∀ t ∈ l, s.pts ∩ t.pts = ∅ := by
  constructor
  · intro h t ht
    rw [Set.eq_empty_iff_forall_notMem] at h ⊢
    exact fun p hp => h p ⟨hp.1, t, ht, hp.2⟩
  · intro h
    rw [Set.eq_empty_iff_forall_notMem]
    rintro p ⟨hp, t, ht, hpt⟩
    have := h t ht
    rw [Set.eq_empty_iff_forall_notMem] at this
    exact this p ⟨hp, hpt⟩

/-- A piece which contains the segment is not everything, unless it is the only piece. -/
theorem not_subset_of_piece {s t : Segment K} {l : List (Segment K)} (hv : SegmentsValid l)
    (h2 : 2 ≤ l.length) (ht : t ∈ l) (h : s.pts ⊆ t.pts) : ¬ segsPts l ⊆ s.pts := by
  intro hM
  rw [segsPts_subset_iff] at hM
  obtain ⟨a, b, rfl⟩ := List.append_of_mem ht
  have key : ∀ t' ∈ a ++ b, (t.pts ∩ t'.pts).Subsingleton := by
    intro t' ht'
    have hp := List.pairwise_append.mp hv.2
    rcases List.mem_append.mp ht' with ht' | ht'
    · rw [Set.inter_comm]
      exact hp.2.2 t' ht' t (by simp)
    · exact (List.pairwise_cons.mp hp.2.1).1 t' ht'
  obtain ⟨t', ht'⟩ : ∃ t', t' ∈ a ++ b := by
    apply List.exists_mem_of_ne_nil
    intro e
    obtain ⟨rfl, rfl⟩ := List.append_eq_nil_iff.mp e
    simp at h2
  have hmem : t' ∈ a ++ t :: b := by
    rcases List.mem_append.mp ht' with h' | h' <;> simp [h']
  have := key t' ht'
  rw [Set.inter_eq_right.mpr ((hM t' hmem).trans h)] at this
  exact Set.not_nontrivial_iff.mpr this (pts_nontrivial (hv.1 t' hmem))

theorem conclude_spec {context : Context K} {s : Segment K} (hs : s.Nondegenerate)
    {l : List (Segment K)} {st : LoopState K} (h : Inv context s l st) :
    LinearRel s (segsPts l) (conclude st) := by
  unfold conclude
  by_cases ho : st.hasNoOverlap = true
  · rw [if_pos ho]
    have hP : ¬ SharesPiece s.pts (segsPts l) := by
      rw [sharesPiece_iff]
      rintro ⟨t, ht, hn⟩
      exact h.ov.mp ho t ht hn
    by_cases hm : (st.hasNoTouch && st.hasNoCross) = true
    · rw [if_pos hm]
      exact inter_segsPts_eq_empty_iff.mpr ((h.meets ho).mp hm)
    · rw [if_neg hm]
      have hne : (s.pts ∩ segsPts l).Nonempty := by
        rw [Set.nonempty_iff_ne_empty]
        intro e
        exact hm ((h.meets ho).mpr (inter_segsPts_eq_empty_iff.mp e))
      by_cases hx : st.hasNoCross = true
      · rw [if_pos hx]
        refine ⟨hP, ?_, hne⟩
        rw [crossedBy_iff, ← h.crossed ho, hx]
        exact Bool.noConfusion
      · rw [if_neg hx]
        refine ⟨hP, ?_⟩
        rw [crossedBy_iff, ← h.crossed ho]
        simpa using hx
  · rw [if_neg ho]
    have hP : SharesPiece s.pts (segsPts l) := by
      rw [sharesPiece_iff]
      by_contra hn
      push Not at hn
      exact ho (h.ov.mpr (fun t ht => Set.not_nontrivial_iff.mpr (hn t ht)))
    have hsup : st.isSegmentSuperset = true ↔ segsPts l ⊆ s.pts := by
      rw [h.sup, segsPts_subset_iff]
    have fin : ∀ {c : Prop} [Decidable c], (s.pts ⊆ segsPts l ↔ c) →
        LinearRel s (segsPts l) (if c then (if st.isSegmentSuperset then .equal else .component)
          else if st.isSegmentSuperset then .composite else .overlap) := by
      intro c _ hcov
      by_cases h1 : c <;> by_cases h2 : st.isSegmentSuperset = true
      · rw [if_pos h1, if_pos h2]
        exact Set.Subset.antisymm (hcov.mpr h1) (hsup.mp h2)
      · rw [if_pos h1, if_neg h2]
        exact ⟨hcov.mpr h1, fun h => h2 (hsup.mpr h)⟩
      · rw [if_neg h1, if_pos h2]
        exact ⟨hsup.mp h2, fun h => h1 (hcov.mp h)⟩
      · rw [if_neg h1, if_neg h2]
        exact ⟨fun h => h1 (hcov.mp h), fun h => h2 (hsup.mpr h), hP⟩
    have hcover := h.cover
    cases hcs : st.components with
    | nil =>
      rw [hcs] at hcover
      exact fin (hcover.covered_nil hs)
    | cons c rest =>
      rw [hcs] at hcover
      simp only
      apply fin
      obtain ⟨⟨a1, a2, a3⟩, b1, b2, b3⟩ := hull_spec rest c.1 c.2
      rw [hcover.covered_cons hs (m := (componentsHull rest c.1 c.2).1)
        (M := (componentsHull rest c.1 c.2).2)]
      · refine and_congr Iff.rfl (and_congr Iff.rfl ?_)
        rw [List.all_eq_true]
        simp only [Bool.or_eq_true, decide_eq_true_eq, List.mem_map]
      · intro d hd
        rcases List.mem_cons.mp hd with rfl | hd
        · exact a2
        · exact a1 d hd
      · rcases a3 with a3 | ⟨d, hd, a3⟩
        · exact ⟨c, by simp, a3.symm⟩
        · exact ⟨d, by simp [hd], a3⟩
      · intro d hd
        rcases List.mem_cons.mp hd with rfl | hd
        · exact b2
        · exact b1 d hd
      · rcases b3 with b3 | ⟨d, hd, b3⟩
        · exact ⟨c, by simp, b3.symm⟩
        · exact ⟨d, by simp [hd], b3⟩

/-- The answer for any list of pieces: the relation of the sets of points, with COMPONENT in place of
EQUAL for a single piece. -/
theorem segmentInMultisegment_spec {context : Context K} (hc : context.Exact) {s : Segment K}
    (hs : s.Nondegenerate) {l : List (Segment K)} (hv : SegmentsValid l) :
    ∃ r, LinearRel s (segsPts l) r ∧ planar.segmentInMultisegment s ⟨l⟩ context
      = if l.length = 1 ∧ r = .equal then .component else r := by
  unfold planar.segmentInMultisegment relateSegment
  rcases loop_spec hc hs l [] (initialState s) (by simpa using hv) (Inv.init context s) with
    ⟨e, t, ht, hsub⟩ | ⟨st, e, h⟩
  · simp only [List.nil_append] at ht
    simp only [e]
    by_cases h2 : 2 ≤ l.length
    · refine ⟨.component, ⟨hsub.trans (subset_segsPts ht), not_subset_of_piece hv h2 ht hsub⟩, ?_⟩
      simp
    · by_cases hM : segsPts l ⊆ s.pts
      · refine ⟨.equal, Set.Subset.antisymm (hsub.trans (subset_segsPts ht)) hM, ?_⟩
        have : l.length = 1 := by
          have := List.length_pos_of_mem ht
          omega
        simp [this]
      · refine ⟨.component, ⟨hsub.trans (subset_segsPts ht), hM⟩, ?_⟩
        simp
  · simp only [List.nil_append] at h
    simp only [e]
    refine ⟨_, conclude_spec hs h, ?_⟩
    rw [if_neg]
    rintro ⟨h1, h2⟩
    obtain ⟨t, rfl⟩ := List.length_eq_one_iff.mp h1
    have := conclude_spec hs h
    rw [h2] at this
    refine h.notSub t (by simp) ?_
    have hM : segsPts [t] = t.pts := by ext p; simp [segsPts]
    rw [← hM, ← show s.pts = segsPts [t] from this]

/-- C04, C05: for at least two pieces the answer is exactly the relation of the two sets of points. -/
theorem C05_segment_in_multisegment {context : Context K} (hc : context.Exact) {s : Segment K}
    (hs : s.Nondegenerate) {l : List (Segment K)} (hv : SegmentsValid l) (h2 : 2 ≤ l.length)
    (r : Relation) :
    planar.segmentInMultisegment s ⟨l⟩ context = r ↔ LinearRel s (segsPts l) r := by
  have hne : l ≠ [] := by rintro rfl; simp at h2
  obtain ⟨r', hr', e⟩ := segmentInMultisegment_spec hc hs hv
  rw [if_neg (by omega)] at e
  rw [e]
  exact ⟨fun h => h ▸ hr', fun h => hr'.unique hs hv.1 hne h⟩

/-- C04: EQUAL or COMPONENT iff every point of the segment lies on the multisegment (for any number
of pieces). -/
theorem C04_subset {context : Context K} (hc : context.Exact) {s : Segment K}
    (hs : s.Nondegenerate) {l : List (Segment K)} (hv : SegmentsValid l) :
    (planar.segmentInMultisegment s ⟨l⟩ context = .equal ∨
      planar.segmentInMultisegment s ⟨l⟩ context = .component) ↔ s.pts ⊆ segsPts l := by
  obtain ⟨r, hr, e⟩ := segmentInMultisegment_spec hc hs hv
  rw [e]
  have hsub : (r = .equal ∨ r = .component) ↔ s.pts ⊆ segsPts l := by
    have eSub : s.pts ⊆ segsPts l → SharesPiece s.pts (segsPts l) := fun h => ⟨s, hs, le_rfl, h⟩
    cases r <;> simp only [LinearRel, reduceCtorEq, or_false, or_true, or_self, true_iff,
      false_iff] at hr ⊢
    · intro h
      exact (eSub h).inter_nonempty.ne_empty hr
    · exact fun h => hr.1 (eSub h)
    · exact fun h => hr.1 (eSub h)
    · exact hr.1
    · exact hr.2
    · exact hr.le
    · exact hr.1
  rw [← hsub]
  split
  · rename_i h; simp [h.2]
  · rfl

/-- C04: EQUAL or COMPOSITE only if every point of the multisegment lies on the segment; conversely
for at least two pieces. -/
theorem C04_superset {context : Context K} (hc : context.Exact) {s : Segment K}
    (hs : s.Nondegenerate) {l : List (Segment K)} (hv : SegmentsValid l) :
    (planar.segmentInMultisegment s ⟨l⟩ context = .equal ∨
      planar.segmentInMultisegment s ⟨l⟩ context = .composite → segsPts l ⊆ s.pts) ∧
    (2 ≤ l.length → segsPts l ⊆ s.pts → planar.segmentInMultisegment s ⟨l⟩ context = .equal ∨
      planar.segmentInMultisegment s ⟨l⟩ context = .composite) := by
  constructor
  · obtain ⟨r, hr, e⟩ := segmentInMultisegment_spec hc hs hv
    rw [e]
    split
    · rintro (h | h) <;> cases h
    · rintro (h | h)
      · rw [h] at hr; exact hr.ge
      · rw [h] at hr; exact hr.1
  · intro h2 h
    by_cases hsub : s.pts ⊆ segsPts l
    · exact .inl ((C05_segment_in_multisegment hc hs hv h2 _).mpr (Set.Subset.antisymm hsub h))
    · exact .inr ((C05_segment_in_multisegment hc hs hv h2 _).mpr ⟨h, hsub⟩)

/-- C05: a single piece. -/
theorem C05_single {context : Context K} (hc : context.Exact) {s t : Segment K}
    (hs : s.Nondegenerate) (ht : t.Nondegenerate) (r : Relation) :
    planar.segmentInMultisegment s ⟨[t]⟩ context = r ↔
      LinearRel s t.pts r ∧ r ≠ .equal ∨ r = .component ∧ s.pts = t.pts := by
  have hv : SegmentsValid [t] := ⟨by simpa using ht, by simp⟩
  have hM : segsPts [t] = t.pts := by ext p; simp [segsPts]
  obtain ⟨r', hr', e⟩ := segmentInMultisegment_spec hc hs hv
  rw [e]
  have uniq := fun {r''} (h : LinearRel s (segsPts [t]) r'') => hr'.unique hs hv.1 (by simp) h
  rw [hM] at uniq hr'
  by_cases h : r' = .equal
  · rw [if_pos ⟨rfl, h⟩]
    have heq : s.pts = t.pts := by rw [h] at hr'; exact hr'
    constructor
    · rintro rfl; exact .inr ⟨rfl, heq⟩
    · rintro (⟨h1, h2⟩ | ⟨h1, -⟩)
      · exact absurd ((uniq h1).symm.trans h) h2
      · exact h1.symm
  · rw [if_neg (fun h' => h h'.2)]
    constructor
    · rintro rfl; exact .inl ⟨hr', h⟩
    · rintro (⟨h1, h2⟩ | ⟨h1, h2⟩)
      · exact uniq h1
      · exact absurd (uniq (r'' := .equal) h2) h

/-- `l'` consists of the segments of `l`, possibly reversed. -/
def Redirected (l l' : List (Segment K)) : Prop :=
  List.Forall₂ (fun a b => b = a ∨ b = a.reverse) l l'

theorem Redirected.segsPts_eq {l l' : List (Segment K)} (h : Redirected l l') :
    segsPts l' = segsPts l := by
  induction h with
  | nil => rfl
  | cons hab _ ih =>
    rename_i a b l₁ l₂ _
    have e : b.pts = a.pts := by
      rcases hab with rfl | rfl
      · rfl
      · exact pts_reverse _
    ext p
    have := Set.ext_iff.mp ih p
    simp only [segsPts, Set.mem_ofPred_eq, List.mem_cons, exists_eq_or_imp] at this ⊢
    rw [e, this]

theorem Redirected.valid {l l' : List (Segment K)} (h : Redirected l l') (hv : SegmentsValid l) :
    SegmentsValid l' := by
  induction h with
  | nil => exact hv
  | cons hab htl ih =>
    rename_i a b l₁ l₂
    have e : b.pts = a.pts := by
      rcases hab with rfl | rfl
      · rfl
      · exact pts_reverse _
    have hp := List.pairwise_cons.mp hv.2
    have ih := ih ⟨fun s hs => hv.1 s (by simp [hs]), hp.2⟩
    refine ⟨?_, List.pairwise_cons.mpr ⟨?_, ih.2⟩⟩
    · intro s hs
      rcases List.mem_cons.mp hs with rfl | hs
      · rcases hab with rfl | rfl
        · exact hv.1 _ (by simp)
        · exact (hv.1 a (by simp)).reverse
      · exact ih.1 s hs
    · intro d hd
      rw [e]
      obtain ⟨c, hc, hcd⟩ : ∃ c ∈ l₁, d.pts = c.pts := by
        clear ih hp hv ‹SegmentsValid _ → SegmentsValid _›
        induction htl with
        | nil => simp at hd
        | cons h1 h2 ih' =>
          rename_i a' b' _ _
          rcases List.mem_cons.mp hd with rfl | hd
          · refine ⟨a', by simp, ?_⟩
            rcases h1 with rfl | rfl
            · rfl
            · exact pts_reverse _
          · obtain ⟨c, hc, e'⟩ := ih' hd
            exact ⟨c, by simp [hc], e'⟩
      rw [hcd]
      exact hp.1 c hc

theorem segmentsValid_perm {l l' : List (Segment K)} (h : l.Perm l') (hv : SegmentsValid l) :
    SegmentsValid l' := by
  refine ⟨fun s hs => hv.1 s (h.mem_iff.mpr hs), (h.pairwise_iff ?_).mp hv.2⟩
  intro a b hab
  rw [Set.inter_comm]
  exact hab

theorem linearRel_reverse (s : Segment K) (M : Set (Point K)) (r : Relation) :
    LinearRel s.reverse M r ↔ LinearRel s M r := by
  cases r <;> simp only [LinearRel, pts_reverse, crossedBy_reverse]

/-- C06: the order and the direction of the pieces and the direction of the segment are irrelevant. -/
theorem C06_representation {context : Context K} (hc : context.Exact) {s s' : Segment K}
    (hs : s.Nondegenerate) (hs' : s' = s ∨ s' = s.reverse) {l l' l'' : List (Segment K)}
    (hv : SegmentsValid l) (hr : Redirected l l') (hp : l'.Perm l'') :
    planar.segmentInMultisegment s' ⟨l''⟩ context = planar.segmentInMultisegment s ⟨l⟩ context := by
  have hv'' : SegmentsValid l'' := segmentsValid_perm hp (hr.valid hv)
  have hM : segsPts l'' = segsPts l := by
    rw [← hr.segsPts_eq]
    ext p
    simp only [segsPts, Set.mem_ofPred_eq, hp.mem_iff]
  have hlen : l''.length = l.length := by rw [← hp.length_eq, ← List.Forall₂.length_eq hr]
  have hsn : s'.Nondegenerate := by
    rcases hs' with rfl | rfl
    · exact hs
    · exact hs.reverse
  by_cases hne : l = []
  · subst hne
    have : l'' = [] := List.length_eq_zero_iff.mp hlen
    subst this
    rcases hs' with rfl | rfl <;> rfl
  obtain ⟨r, h1, e1⟩ := segmentInMultisegment_spec hc hs hv
  obtain ⟨r', h2, e2⟩ := segmentInMultisegment_spec hc hsn hv''
  have h2' : LinearRel s (segsPts l) r' := by
    rw [hM] at h2
    rcases hs' with rfl | rfl
    · exact h2
    · exact (linearRel_reverse _ _ _).mp h2
  rw [e1, e2, hlen, h1.unique hs hv.1 hne h2']

/-- A segment with a covering by three pieces listed out of order, with a gap, and with pieces that
touch it in the same point from both sides or from one side. -/
example : let s : Segment ℚ := ⟨⟨6, 0⟩, ⟨0, 0⟩⟩
    let covering : List (Segment ℚ) := [⟨⟨2, 0⟩, ⟨4, 0⟩⟩, ⟨⟨9, 0⟩, ⟨4, 0⟩⟩, ⟨⟨-1, 0⟩, ⟨2, 0⟩⟩]
    let gap : List (Segment ℚ) := [⟨⟨2, 0⟩, ⟨4, 0⟩⟩, ⟨⟨9, 0⟩, ⟨5, 0⟩⟩, ⟨⟨-1, 0⟩, ⟨2, 0⟩⟩]
    let sides : List (Segment ℚ) := [⟨⟨2, 0⟩, ⟨4, 1⟩⟩, ⟨⟨0, 0⟩, ⟨0, 1⟩⟩, ⟨⟨2, -1⟩, ⟨2, 0⟩⟩]
    let side : List (Segment ℚ) := [⟨⟨2, 0⟩, ⟨4, 1⟩⟩, ⟨⟨0, 0⟩, ⟨0, 1⟩⟩, ⟨⟨2, 1⟩, ⟨2, 0⟩⟩]
    s.Nondegenerate ∧ SegmentsValid covering ∧ SegmentsValid gap ∧ SegmentsValid sides ∧
    SegmentsValid side ∧
    planar.segmentInMultisegment s ⟨covering⟩ (reference.context : Context ℚ) = .component ∧
    planar.segmentInMultisegment s ⟨gap⟩ (reference.context : Context ℚ) = .overlap ∧
    planar.segmentInMultisegment s ⟨sides⟩ (reference.context : Context ℚ) = .cross ∧
    planar.segmentInMultisegment s ⟨side⟩ (reference.context : Context ℚ) = .touch := by
  refine ⟨by unfold Segment.Nondegenerate; decide +kernel,
    segmentsValid_of_check (by decide +kernel), segmentsValid_of_check (by decide +kernel),
    segmentsValid_of_check (by decide +kernel), segmentsValid_of_check (by decide +kernel), ?_⟩
  decide +kernel

end Orient.Props
