import Verif.Lemmas.Sweep.Refine
import Mathlib.Algebra.BigOperators.Group.Finset.Basic
import Mathlib.Algebra.Order.BigOperators.Group.Finset
import Mathlib.Data.Finset.Prod

/-! Every sweep terminates: the queue grows by two events per division, and each division uses up one
of finitely many break points inside the pieces. -/

set_option linter.unusedSectionVars false

namespace Orient.State

variable {K : Type} [Field K] [LinearOrder K] [IsStrictOrderedRing K]

open Segment

/-- All endpoints and all common points of segments which are not on a line are in `P`. -/
structure BreakPoints (s : State K) (P : Finset (Point K)) : Prop where
  start : ∀ i < s.nextLeft, (s.lefts i).start ∈ P
  finish : ∀ i < s.nextLeft, s.leftEnd i ∈ P
  common : ∀ i < s.nextLeft, ∀ j < s.nextLeft, ¬ (s.seg i).Collinear (s.seg j) →
    ∀ p ∈ (s.seg i).pts, p ∈ (s.seg j).pts → p ∈ P

theorem exists_breakPoints {s : State K} (h : s.WF) :
    ∃ P : Finset (Point K), BreakPoints s P ∧
      P.card ≤ 2 * s.nextLeft + s.nextLeft * s.nextLeft := by
  classical
  let R := Finset.range s.nextLeft
  let f : Nat × Nat → Point K := fun q =>
    if hq : ∃ p, p ∈ (s.seg q.1).pts ∧ p ∈ (s.seg q.2).pts then hq.choose else ⟨0, 0⟩
  refine ⟨(R.image (fun i => (s.lefts i).start) ∪ R.image s.leftEnd) ∪ (R ×ˢ R).image f,
    ⟨?_, ?_, ?_⟩, ?_⟩
  · intro i hi
    exact Finset.mem_union_left _ (Finset.mem_union_left _
      (Finset.mem_image.mpr ⟨i, Finset.mem_range.mpr hi, rfl⟩))
  · intro i hi
    exact Finset.mem_union_left _ (Finset.mem_union_right _
      (Finset.mem_image.mpr ⟨i, Finset.mem_range.mpr hi, rfl⟩))
  · intro i hi j hj hn p hp hp'
    refine Finset.mem_union_right _ (Finset.mem_image.mpr
      ⟨(i, j), Finset.mem_product.mpr ⟨Finset.mem_range.mpr hi, Finset.mem_range.mpr hj⟩, ?_⟩)
    have hq : ∃ p, p ∈ (s.seg i).pts ∧ p ∈ (s.seg j).pts := ⟨p, hp, hp'⟩
    simp only [f, dif_pos hq]
    by_contra hne
    exact hn (collinear_of_nontrivial (h.nondegenerate hj)
      ⟨_, hq.choose_spec, p, ⟨hp, hp'⟩, hne⟩)
  · refine (Finset.card_union_le _ _).trans ?_
    have h1 := Finset.card_union_le (R.image (fun i => (s.lefts i).start)) (R.image s.leftEnd)
    have h2 := Finset.card_image_le (s := R) (f := fun i => (s.lefts i).start)
    have h3 := Finset.card_image_le (s := R) (f := s.leftEnd)
    have h4 := Finset.card_image_le (s := R ×ˢ R) (f := f)
    rw [Finset.card_product, Finset.card_range] at h4
    rw [Finset.card_range] at h2 h3
    omega

/-- Pieces of segments on a line are on a line. -/
theorem collinear_of_subset {t g t' g' : Segment K} (ht : t.Nondegenerate) (ht' : t'.Nondegenerate)
    (hs : t'.pts ⊆ t.pts) (hs' : g'.pts ⊆ g.pts) (h : t.Collinear g) : t'.Collinear g' := by
  have on : ∀ p ∈ g.pts, cross t.start t.finish p = 0 := by
    rintro p ⟨u, -, -, rfl⟩
    rw [cross_lerp, h.1, h.2]; ring
  have := cross_eq_zero_iff_of_collinear ht ht' (cross_eq_zero (hs t'.start_mem))
    (cross_eq_zero (hs t'.finish_mem))
  exact ⟨(this _).mpr (on _ (hs' g'.start_mem)), (this _).mpr (on _ (hs' g'.finish_mem))⟩

theorem BreakPoints.mem_of_divide {s : State K} {P : Finset (Point K)} (hP : BreakPoints s P)
    {i : Nat} (hi : i < s.nextLeft) {p : Point K} (hp : (s.seg i).Inner p)
    (hj : ∃ j < s.nextLeft, p ∈ (s.seg j).pts ∧
        (¬ (s.seg i).Collinear (s.seg j) ∨ (s.seg j).IsEndpoint p)) : p ∈ P := by
  obtain ⟨j, hj, hpj, hn | he⟩ := hj
  · exact hP.common i hi j hj hn p hp.1 hpj
  · rcases he with rfl | rfl
    · exact hP.start j hj
    · exact hP.finish j hj

theorem BreakPoints.divide {s : State K} {P : Finset (Point K)} (hP : BreakPoints s P)
    (hw : s.WF) {i : Nat} (hi : i < s.nextLeft) {p : Point K} (hp : (s.seg i).Inner p)
    (hpP : p ∈ P) : BreakPoints (s.divide i p) P := by
  have cases : ∀ j, j < (s.divide i p).nextLeft → j < s.nextLeft ∨ j = s.nextLeft :=
    fun j hj => Nat.lt_succ_iff_lt_or_eq.mp hj
  have hw' := divide_wf hw hi p hp
  obtain ⟨s1, s2, -⟩ := divide_parts hw hi hp
  have origin : ∀ j, j < (s.divide i p).nextLeft → ∃ k < s.nextLeft,
      ((s.divide i p).seg j).pts ⊆ (s.seg k).pts := by
    intro j hj
    rcases cases j hj with hj' | rfl
    · by_cases hij : j = i
      · subst hij; exact ⟨j, hj', s1⟩
      · exact ⟨j, hj', by rw [divide_seg_other hw hi p hj' hij]⟩
    · exact ⟨i, hi, s2⟩
  refine ⟨?_, ?_, ?_⟩
  · intro j hj
    rcases cases j hj with hj' | rfl
    · rw [divide_start hw hi p hj']; exact hP.start j hj'
    · rw [divide_lefts_new hw hi p]; exact hpP
  · intro j hj
    rcases cases j hj with hj' | rfl
    · by_cases hij : j = i
      · subst hij; rw [divide_leftEnd_self hw hi p]; exact hpP
      · rw [divide_leftEnd_other hw hi p hj' hij]; exact hP.finish j hj'
    · rw [divide_leftEnd_new hw hi p]; exact hP.finish i hi
  · intro j hj k hk hn x hx hx'
    obtain ⟨j', hj', hjs⟩ := origin j hj
    obtain ⟨k', hk', hks⟩ := origin k hk
    exact hP.common j' hj' k' hk' (fun hc => hn (collinear_of_subset (hw.nondegenerate hj')
      (hw'.nondegenerate hj) hjs hks hc)) x (hjs hx) (hks hx')

open Classical in
/-- The break points inside a piece. -/
noncomputable def inside (s : State K) (P : Finset (Point K)) (i : Nat) : Finset (Point K) :=
  P.filter (fun p => (s.seg i).Inner p)

theorem inside_congr {s s' : State K} (P : Finset (Point K)) {i : Nat} (h : s'.seg i = s.seg i) :
    s'.inside P i = s.inside P i := by
  unfold inside; rw [h]

theorem inside_subset (s : State K) (P : Finset (Point K)) (i : Nat) : s.inside P i ⊆ P := by
  classical
  exact Finset.filter_subset _ _

/-- The length of the queue and twice the number of break points inside pieces. -/
noncomputable def potential (P : Finset (Point K)) (s : State K) : Nat :=
  s.queue.length + 2 * ∑ i ∈ Finset.range s.nextLeft, (s.inside P i).card

theorem potential_divide {s : State K} {P : Finset (Point K)} (hw : s.WF) {i : Nat}
    (hi : i < s.nextLeft) {p : Point K} (hp : (s.seg i).Inner p) (hpP : p ∈ P) :
    potential P (s.divide i p) ≤ potential P s := by
  classical
  obtain ⟨-, hp1, hp2⟩ := (hw.inner_iff hi).mp hp
  obtain ⟨s1, s2, -⟩ := divide_parts hw hi hp
  have hw' := divide_wf hw hi p hp
  have hi' : i < (s.divide i p).nextLeft := Nat.lt_succ_of_lt hi
  have hn' : s.nextLeft < (s.divide i p).nextLeft := Nat.lt_succ_self _
  have key : ((s.divide i p).inside P i).card + ((s.divide i p).inside P s.nextLeft).card + 1
      ≤ (s.inside P i).card := by
    have a1 : ∀ x, ((s.divide i p).seg i).Inner x → (s.seg i).Inner x ∧ x < p := by
      intro x hx
      obtain ⟨b1, b2, b3⟩ := (hw'.inner_iff hi').mp hx
      rw [divide_start hw hi p hi] at b2
      rw [divide_leftEnd_self hw hi p] at b3
      exact ⟨(hw.inner_iff hi).mpr ⟨s1 b1, b2, b3.trans hp2⟩, b3⟩
    have a2 : ∀ x, ((s.divide i p).seg s.nextLeft).Inner x → (s.seg i).Inner x ∧ p < x := by
      intro x hx
      obtain ⟨b1, b2, b3⟩ := (hw'.inner_iff hn').mp hx
      rw [divide_lefts_new hw hi p] at b2
      rw [divide_leftEnd_new hw hi p] at b3
      exact ⟨(hw.inner_iff hi).mpr ⟨s2 b1, hp1.trans b2, b3⟩, b2⟩
    have hd : Disjoint ((s.divide i p).inside P i) ((s.divide i p).inside P s.nextLeft) := by
      rw [Finset.disjoint_left]
      intro x hx hx'
      simp only [inside, Finset.mem_filter] at hx hx'
      exact lt_asymm (a1 x hx.2).2 (a2 x hx'.2).2
    have hnp : p ∉ (s.divide i p).inside P i ∪ (s.divide i p).inside P s.nextLeft := by
      intro hx
      simp only [inside, Finset.mem_union, Finset.mem_filter] at hx
      rcases hx with hx | hx
      · exact lt_irrefl _ (a1 p hx.2).2
      · exact lt_irrefl _ (a2 p hx.2).2
    rw [← Finset.card_union_of_disjoint hd, ← Finset.card_insert_of_notMem hnp]
    refine Finset.card_le_card fun x hx => ?_
    simp only [inside, Finset.mem_insert, Finset.mem_union, Finset.mem_filter] at hx ⊢
    rcases hx with rfl | hx | hx
    · exact ⟨hpP, hp⟩
    · exact ⟨hx.1, (a1 x hx.2).1⟩
    · exact ⟨hx.1, (a2 x hx.2).1⟩
  have hsum : ∑ j ∈ Finset.range s.nextLeft, ((s.divide i p).inside P j).card
      + (s.inside P i).card
      = ∑ j ∈ Finset.range s.nextLeft, (s.inside P j).card + ((s.divide i p).inside P i).card := by
    rw [← Finset.add_sum_erase _ _ (Finset.mem_range.mpr hi),
      ← Finset.add_sum_erase (Finset.range s.nextLeft) (fun j => (s.inside P j).card)
        (Finset.mem_range.mpr hi)]
    have : ∑ j ∈ (Finset.range s.nextLeft).erase i, ((s.divide i p).inside P j).card
        = ∑ j ∈ (Finset.range s.nextLeft).erase i, (s.inside P j).card := by
      refine Finset.sum_congr rfl fun j hj => ?_
      rw [Finset.mem_erase, Finset.mem_range] at hj
      unfold inside
      rw [divide_seg_other hw hi p hj.2 hj.1]
    rw [this]
    omega
  have hnl : (s.divide i p).nextLeft = s.nextLeft + 1 := rfl
  have hq : (s.divide i p).queue.length = s.queue.length + 2 := rfl
  unfold potential
  rw [hnl, hq, Finset.sum_range_succ]
  omega

theorem Elem.potential {s s' : State K} {P : Finset (Point K)} (h : Elem s s') (hw : s.WF)
    (hP : BreakPoints s P) : BreakPoints s' P ∧ s'.potential P ≤ s.potential P := by
  have same : ∀ u : State K, SameShape s u → BreakPoints u P ∧ State.potential P u ≤
      State.potential P s := by
    intro u hu
    refine ⟨⟨?_, ?_, ?_⟩, le_of_eq ?_⟩
    · rw [hu.nextLeft]; intro i hi; rw [hu.start]; exact hP.start i hi
    · rw [hu.nextLeft]; intro i hi; rw [hu.leftEnd]; exact hP.finish i hi
    · rw [hu.nextLeft]; intro i hi j hj; rw [hu.seg, hu.seg]; exact hP.common i hi j hj
    · unfold State.potential
      rw [hu.queue, hu.nextLeft]
      simp only [fun i => inside_congr P (hu.seg i)]
  cases h with
  | flags h _ => exact same s' h
  | relation h => exact same s' h.shape
  | divide i p hi hp hj =>
    have hpP := hP.mem_of_divide hi hp hj
    exact ⟨hP.divide hw hi hp hpP, potential_divide hw hi hp hpP⟩

theorem Elems.potential {s s' : State K} {P : Finset (Point K)} (h : Elems s s') (hw : s.WF)
    (hP : BreakPoints s P) : BreakPoints s' P ∧ s'.potential P ≤ s.potential P := by
  induction h with
  | refl => exact ⟨hP, le_rfl⟩
  | tail h1 h2 ih =>
    have := h2.potential (h1.wf hw) ih.1
    exact ⟨this.1, this.2.trans ih.2⟩

end Orient.State

namespace Orient.eventsQueue

variable {K : Type} [Field K] [LinearOrder K] [IsStrictOrderedRing K]

open State

/-- The loop does not run out of fuel if there is more of it than potential. -/
theorem sweepLoop_ne_outOfFuel {linear : Bool} {context : Context K} (hc : context.Exact) {stopX : K}
    {P : Finset (Point K)} (fuel : Nat) {c : Config K} (hi : Inv c) (hP : BreakPoints c.s P)
    (hf : c.s.potential P < fuel) :
    (sweepLoop linear context stopX fuel c.s c.line c.start c.group).2 ≠ .error .outOfFuel := by
  induction fuel generalizing c with
  | zero => omega
  | succ fuel ih =>
    rw [sweepLoop_succ]
    split
    · simp
    · next hs =>
      have := sweepStep_spec hc hi hs
      simp only [StepOutcome] at this
      rw [this.1]
      simp
    · next ems d hs =>
      obtain ⟨hd, e, he, hel⟩ := sweepStep_spec hc hi hs
      have h1 : BreakPoints (popped c.s e) P := ⟨hP.start, hP.finish, hP.common⟩
      obtain ⟨hP', hle⟩ := hel.potential (pop_wf hi.wf e) h1
      refine ih hd hP' ?_
      have : (c.s.queue.erase e).length + 1 = c.s.queue.length := by
        rw [List.length_erase_of_mem he]
        have := List.length_pos_of_mem he
        omega
      have h2 : (popped c.s e).potential P + 1 = c.s.potential P := by
        have e1 : (popped c.s e).potential P = (c.s.queue.erase e).length
          + 2 * ∑ i ∈ Finset.range c.s.nextLeft, (c.s.inside P i).card := rfl
        have e2 : c.s.potential P = c.s.queue.length
          + 2 * ∑ i ∈ Finset.range c.s.nextLeft, (c.s.inside P i).card := rfl
        omega
      omega

/-- The start of a sweep. -/
def initial (context : Context K) (s : State K) : Config K :=
  ⟨s, [], (peek? context s).map s.evStart, []⟩

theorem initial_inv (context : Context K) {s : State K} (h : s.WF) : Inv (initial context s) :=
  ⟨h, ⟨List.nodup_nil, by simp [initial], by simp [initial]⟩, fun p _ => by simp [GroupOK, initial],
    fun _ => rfl⟩

/-- Every sweep terminates within the given number of iterations. -/
theorem sweep_ne_outOfFuel (linear : Bool) {context : Context K} (hc : context.Exact) (stopX : K)
    {s : State K} (h : s.WF) (hq : s.queue.length = 2 * s.nextLeft) :
    (sweep linear context stopX s).2 ≠ .error .outOfFuel := by
  obtain ⟨P, hP, hcard⟩ := exists_breakPoints h
  refine sweepLoop_ne_outOfFuel hc (enoughFuel s) (c := initial context s) (initial_inv context h) hP ?_
  have h1 : ∑ i ∈ Finset.range s.nextLeft, (s.inside P i).card ≤ s.nextLeft * P.card := by
    refine (Finset.sum_le_card_nsmul _ _ P.card fun i _ => ?_).trans (by simp)
    exact Finset.card_le_card (inside_subset s P i)
  have h2 := Nat.mul_le_mul_left s.nextLeft hcard
  unfold enoughFuel potential
  simp only [initial]
  rw [hq]
  omega

/-- How a sweep ends. -/
theorem sweep_ends (linear : Bool) {context : Context K} (hc : context.Exact) (stopX : K)
    {s : State K} (h : s.WF) (hq : s.queue.length = 2 * s.nextLeft) :
    (∃ ems d, Reaches linear context stopX (initial context s) ems d ∧
      sweepStep linear context stopX d = none ∧
      (sweep linear context stopX s).1 = ems ++ (closeGroup linear context d.s d.group).1 ∧
      (sweep linear context stopX s).2 = .ok (closeGroup linear context d.s d.group).2) ∨
    ((sweep linear context stopX s).2 = .error .valueError ∧ Clash s) := by
  rcases sweepLoop_ends linear context stopX (enoughFuel s) (initial context s) [] _ .refl _ rfl
    with h1 | ⟨ems', ems'', d, e, h1, h2, -, h4⟩ | h1
  · left
    simp only [List.nil_append] at h1
    exact h1
  · right
    obtain ⟨hd, hel⟩ := h1.inv hc (initial_inv context h)
    obtain ⟨he, t, ht, hcl⟩ := sweepStep_spec hc hd h2
    have hel' : Runs s t := hel.trans ht
    obtain ⟨o, ho⟩ := hel'.refines h
    exact ⟨h4.trans (by rw [he]), ho.clash (hel'.wf h) hcl⟩
  · exact absurd h1 (sweep_ne_outOfFuel linear hc stopX h hq)

end Orient.eventsQueue
