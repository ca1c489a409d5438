import Verif.Spec.Contacts
import Verif.Lemmas.Sweep.Track
import Verif.Lemmas.Sweep.OpenLinear
import Verif.Lemmas.Sweep.Register

/-! How many events a sweep handles. -/

set_option linter.unusedSectionVars false

namespace Orient

variable {K : Type} [Field K] [LinearOrder K] [IsStrictOrderedRing K]

open Segment State

/-! ### contacts of segments -/

namespace Segment

theorem Inner.lo_lt {u : Segment K} {p : Point K} (h : u.Inner p) : u.lo < p ∧ p < u.hi := by
  obtain ⟨h1, h2⟩ := h
  rw [isEndpoint_iff] at h2
  push Not at h2
  exact ⟨lt_of_le_of_ne (lo_le h1) h2.1.symm, lt_of_le_of_ne (le_hi h1) h2.2⟩

theorem metAt_iff {u v : Segment K} (hu : u.Nondegenerate) (hv : v.Nondegenerate) {p : Point K} :
    u.MetAt v p ↔ u.Inner p ∧ p ∈ v.pts ∧ (¬ u.Collinear v ∨ v.IsEndpoint p) := by
  constructor
  · rintro ⟨h1, h2, h3, h4⟩
    refine ⟨⟨h1, h2⟩, h3, ?_⟩
    by_contra hn
    push Not at hn
    obtain ⟨hc, he⟩ := hn
    obtain ⟨a1, a2⟩ := Inner.lo_lt (u := u) ⟨h1, h2⟩
    obtain ⟨b1, b2⟩ := Inner.lo_lt (u := v) ⟨h3, he⟩
    have l1 : max u.lo v.lo < p := max_lt a1 b1
    have l2 : p < min u.hi v.hi := lt_min a2 b2
    have line : ∀ x, x = max u.lo v.lo ∨ x = min u.hi v.hi → cross u.start u.finish x = 0 := by
      rintro x (rfl | rfl)
      · rcases max_choice u.lo v.lo with e | e <;> rw [e]
        · exact cross_lo (collinear_self u)
        · exact cross_lo hc
      · rcases min_choice u.hi v.hi with e | e <;> rw [e]
        · exact cross_hi (collinear_self u)
        · exact cross_hi hc
    have e1 := (hc.mem_inter_iff hu hv _).mpr ⟨line _ (.inl rfl), le_rfl, (l1.trans l2).le⟩
    have e2 := (hc.mem_inter_iff hu hv _).mpr ⟨line _ (.inr rfl), (l1.trans l2).le, le_rfl⟩
    refine h4 ⟨max u.lo v.lo, min u.hi v.hi⟩ ?_ ?_ (pts_subset e1.1 e2.1) (pts_subset e1.2 e2.2)
    · rw [mem_pts_iff]
      refine ⟨?_, (min_le_left _ _).trans l1.le, l2.le.trans (le_max_right _ _)⟩
      exact collinear_trans hu (line _ (.inl rfl)) (line _ (.inr rfl)) (cross_eq_zero h1)
    · rintro (e | e)
      · exact l1.ne' e
      · exact l2.ne e
  · rintro ⟨hi, h3, h4⟩
    refine ⟨hi.1, hi.2, h3, fun w hw1 hw2 hw3 hw4 => ?_⟩
    obtain ⟨l1, l2⟩ := Inner.lo_lt (u := w) ⟨hw1, hw2⟩
    rcases h4 with h4 | h4
    · exact h4 (collinear_of_nontrivial hv
        ⟨p, ⟨hw3 hw1, hw4 hw1⟩, w.lo, ⟨hw3 w.lo_mem, hw4 w.lo_mem⟩, l1.ne'⟩)
    · rw [isEndpoint_iff] at h4
      rcases h4 with e | e
      · exact absurd (lo_le (hw4 w.lo_mem)) (not_le.mpr (e ▸ l1))
      · exact absurd (le_hi (hw4 w.hi_mem)) (not_le.mpr (e ▸ l2))

theorem isEndpoint_congr {u u' : Segment K} (hu : u.Nondegenerate) (e : u.pts = u'.pts)
    (p : Point K) : u.IsEndpoint p ↔ u'.IsEndpoint p := by
  have hu' : u'.Nondegenerate := by rw [nondegenerate_iff, ← e, ← nondegenerate_iff]; exact hu
  obtain ⟨e1, e2⟩ := (pts_eq_iff hu hu').mp e
  rw [isEndpoint_iff, isEndpoint_iff, e1, e2]

theorem metAt_congr {u u' v v' : Segment K} (hu : u.Nondegenerate) (e : u.pts = u'.pts)
    (e' : v.pts = v'.pts) (p : Point K) : u.MetAt v p ↔ u'.MetAt v' p := by
  unfold MetAt
  rw [e, e', isEndpoint_congr hu e]

end Segment

theorem contactPoints_congr {l l' : List (Segment K)} {u u' : Segment K} (hu : u.Nondegenerate)
    (e : u.pts = u'.pts) (hl : (l.map Segment.pts).Perm (l'.map Segment.pts)) :
    contactPoints l u = contactPoints l' u' := by
  ext p
  constructor
  · rintro ⟨v, hv, hm⟩
    obtain ⟨v', hv', ev⟩ := List.mem_map.mp (hl.mem_iff.mp (List.mem_map_of_mem (f := Segment.pts) hv))
    exact ⟨v', hv', (metAt_congr hu e ev.symm p).mp hm⟩
  · rintro ⟨v, hv, hm⟩
    obtain ⟨v', hv', ev⟩ := List.mem_map.mp (hl.mem_iff.mpr (List.mem_map_of_mem (f := Segment.pts) hv))
    exact ⟨v', hv', (metAt_congr hu e ev p).mpr hm⟩

/-- The number of contacts depends only on the sets of points of the segments. -/
theorem contacts_congr {l l' : List (Segment K)} (hn : ∀ u ∈ l, u.Nondegenerate)
    (hl : (l.map Segment.pts).Perm (l'.map Segment.pts)) : contacts l = contacts l' := by
  classical
  -- the count as a function of the set of points
  let f : Set (Point K) → ℕ := fun S =>
    if h : ∃ u ∈ l, u.pts = S then (contactPoints l h.choose).ncard else 0
  have h1 : ∀ u ∈ l, (contactPoints l u).ncard = f u.pts := by
    intro u hu
    have h : ∃ v ∈ l, v.pts = u.pts := ⟨u, hu, rfl⟩
    simp only [f, dif_pos h]
    rw [contactPoints_congr (hn u hu) h.choose_spec.2.symm (List.Perm.refl _)]
  have h2 : ∀ u ∈ l', (contactPoints l' u).ncard = f u.pts := by
    intro u hu
    obtain ⟨v, hv, ev⟩ := List.mem_map.mp (hl.mem_iff.mpr (List.mem_map_of_mem (f := Segment.pts) hu))
    rw [← ev, ← h1 v hv, contactPoints_congr (hn v hv) ev hl]
  unfold contacts
  rw [List.map_congr_left h1, List.map_congr_left h2]
  have := (hl.map f).sum_eq
  rwa [List.map_map, List.map_map] at this

namespace State

/-- All the registered segments. -/
def allSegs (s : State K) : List (Segment K) := (List.range s.nextLeft).map s.seg

theorem mem_allSegs {s : State K} {u : Segment K} :
    u ∈ s.allSegs ↔ ∃ i < s.nextLeft, s.seg i = u := by
  simp [allSegs]

theorem allSegs_perm (s : State K) : s.allSegs.Perm (s.segs false ++ s.segs true) := by
  unfold allSegs segs
  rw [← List.map_append]
  refine List.Perm.map _ ?_
  have := (List.filter_append_perm (fun i => decide ((s.lefts i).fromTest = false))
    (List.range s.nextLeft)).symm
  refine this.trans (List.Perm.of_eq ?_)
  congr 1
  refine List.filter_congr fun i _ => ?_
  cases (s.lefts i).fromTest <;> rfl

/-- Only break points which are one. -/
theorem exists_breakPoints_exact {s : State K} (h : s.WF) :
    ∃ P : Finset (Point K), BreakPoints s P ∧
      ∀ i < s.nextLeft, (s.inside P i : Set (Point K)) = contactPoints s.allSegs (s.seg i) := by
  classical
  obtain ⟨P, hP, -⟩ := exists_breakPoints h
  let good : Point K → Prop := fun p => (∃ i < s.nextLeft, (s.seg i).IsEndpoint p) ∨
    ∃ i < s.nextLeft, ∃ j < s.nextLeft, ¬ (s.seg i).Collinear (s.seg j) ∧
      p ∈ (s.seg i).pts ∧ p ∈ (s.seg j).pts
  refine ⟨P.filter good, ⟨fun i hi => ?_, fun i hi => ?_, fun i hi j hj hn p hp hp' => ?_⟩,
    fun i hi => ?_⟩
  · exact Finset.mem_filter.mpr ⟨hP.start i hi, .inl ⟨i, hi, .inl rfl⟩⟩
  · exact Finset.mem_filter.mpr ⟨hP.finish i hi, .inl ⟨i, hi, .inr rfl⟩⟩
  · exact Finset.mem_filter.mpr ⟨hP.common i hi j hj hn p hp hp', .inr ⟨i, hi, j, hj, hn, hp, hp'⟩⟩
  · ext p
    simp only [inside, Finset.coe_filter, Set.mem_setOf_eq, Finset.mem_filter]
    constructor
    · rintro ⟨⟨-, hg⟩, hin⟩
      rcases hg with ⟨j, hj, he⟩ | ⟨j, hj, k, hk, hn, m1, m2⟩
      · exact ⟨s.seg j, mem_allSegs.mpr ⟨j, hj, rfl⟩,
          (metAt_iff (h.nondegenerate hi) (h.nondegenerate hj)).mpr ⟨hin, he.mem, .inr he⟩⟩
      · have ni := h.nondegenerate hi
        have nj := h.nondegenerate hj
        have nk := h.nondegenerate hk
        by_cases hc : (s.seg i).Collinear (s.seg j)
        · refine ⟨s.seg k, mem_allSegs.mpr ⟨k, hk, rfl⟩, (metAt_iff ni nk).mpr ⟨hin, m2, .inl ?_⟩⟩
          intro hc'
          exact hn ⟨(hc.cross_iff ni nj _).mpr hc'.1, (hc.cross_iff ni nj _).mpr hc'.2⟩
        · exact ⟨s.seg j, mem_allSegs.mpr ⟨j, hj, rfl⟩, (metAt_iff ni nj).mpr ⟨hin, m1, .inl hc⟩⟩
    · rintro ⟨v, hv, hm⟩
      obtain ⟨j, hj, rfl⟩ := mem_allSegs.mp hv
      obtain ⟨h1, h2, h3⟩ := (metAt_iff (h.nondegenerate hi) (h.nondegenerate hj)).mp hm
      refine ⟨⟨?_, ?_⟩, h1⟩
      · exact hP.mem_of_divide hi h1 ⟨j, hj, h2, h3⟩
      · rcases h3 with h3 | h3
        · exact .inr ⟨i, hi, j, hj, h3, h1.1, h2⟩
        · exact .inl ⟨j, hj, h3⟩

/-- The sum over the pieces. -/
theorem sum_inside {s : State K} {P : Finset (Point K)}
    (hP : ∀ i < s.nextLeft, (s.inside P i : Set (Point K)) = contactPoints s.allSegs (s.seg i)) :
    ∑ i ∈ Finset.range s.nextLeft, (s.inside P i).card = contacts s.allSegs := by
  unfold contacts
  rw [show s.allSegs.map (fun u => (contactPoints s.allSegs u).ncard)
      = (List.range s.nextLeft).map (fun i => (s.inside P i).card) from ?_]
  · have key : ∀ (n : Nat) (f : Nat → Nat), ∑ i ∈ Finset.range n, f i = ((List.range n).map f).sum := by
      intro n f
      induction n with
      | zero => simp
      | succ n ih => rw [Finset.sum_range_succ, ih, List.range_succ]; simp
    exact key _ _
  · rw [allSegs, List.map_map]
    refine List.map_congr_left fun i hi => ?_
    show (contactPoints s.allSegs (s.seg i)).ncard = _
    rw [← hP i (List.mem_range.mp hi), Set.ncard_coe_finset]

/-- A division uses up exactly one break point. -/
theorem potential_divide_eq {s : State K} {P : Finset (Point K)} (hw : s.WF) {i : Nat}
    (hi : i < s.nextLeft) {p : Point K} (hp : (s.seg i).Inner p) (hpP : p ∈ P) :
    potential P (s.divide i p) = potential P s := by
  classical
  refine le_antisymm (potential_divide hw hi hp hpP) ?_
  obtain ⟨hpm, hp1, hp2⟩ := (hw.inner_iff hi).mp hp
  obtain ⟨-, -, s3⟩ := divide_parts hw hi hp
  have hw' := divide_wf hw hi p hp
  have hi' : i < (s.divide i p).nextLeft := Nat.lt_succ_of_lt hi
  have hn' : s.nextLeft < (s.divide i p).nextLeft := Nat.lt_succ_self _
  have key : (s.inside P i).card ≤
      ((s.divide i p).inside P i).card + ((s.divide i p).inside P s.nextLeft).card + 1 := by
    refine le_trans (Finset.card_le_card (t := insert p ((s.divide i p).inside P i ∪
      (s.divide i p).inside P s.nextLeft)) fun x hx => ?_) ?_
    · simp only [inside, Finset.mem_insert, Finset.mem_union, Finset.mem_filter] at hx ⊢
      obtain ⟨hxP, hxi⟩ := hx
      obtain ⟨hxm, hx1, hx2⟩ := (hw.inner_iff hi).mp hxi
      rcases lt_trichotomy x p with hlt | rfl | hlt
      · refine .inr (.inl ⟨hxP, (hw'.inner_iff hi').mpr ⟨?_, ?_, ?_⟩⟩)
        · rcases s3 x hxm with h | h
          · exact h
          · exfalso
            have h2 := hw'.lo_seg hn'
            rw [divide_lefts_new hw hi p] at h2
            have h3 : ((s.divide i p).seg s.nextLeft).lo ≤ x := lo_le h
            rw [h2] at h3
            exact absurd h3 (not_le.mpr hlt)
        · rw [divide_start hw hi p hi]; exact hx1
        · rw [divide_leftEnd_self hw hi p]; exact hlt
      · exact .inl rfl
      · refine .inr (.inr ⟨hxP, (hw'.inner_iff hn').mpr ⟨?_, ?_, ?_⟩⟩)
        · rcases s3 x hxm with h | h
          · exfalso
            have h2 := hw'.hi_seg hi'
            rw [divide_leftEnd_self hw hi p] at h2
            have h3 : x ≤ ((s.divide i p).seg i).hi := le_hi h
            rw [h2] at h3
            exact absurd h3 (not_le.mpr hlt)
          · exact h
        · rw [divide_lefts_new hw hi p]; exact hlt
        · rw [divide_leftEnd_new hw hi p]; exact hx2
    · refine (Finset.card_insert_le _ _).trans ?_
      have := Finset.card_union_le ((s.divide i p).inside P i) ((s.divide i p).inside P s.nextLeft)
      omega
  have hsum : ∑ j ∈ Finset.range s.nextLeft, ((s.divide i p).inside P j).card
      + (s.inside P i).card
      = ∑ j ∈ Finset.range s.nextLeft, (s.inside P j).card + ((s.divide i p).inside P i).card := by
    rw [← Finset.add_sum_erase _ _ (Finset.mem_range.mpr hi),
      ← Finset.add_sum_erase (Finset.range s.nextLeft) (fun j => (s.inside P j).card)
        (Finset.mem_range.mpr hi)]
    have : ∑ j ∈ (Finset.range s.nextLeft).erase i, ((s.divide i p).inside P j).card
        = ∑ j ∈ (Finset.range s.nextLeft).erase i, (s.inside P j).card := by
      refine Finset.sum_congr rfl fun j hj => ?_
      rw [Finset.mem_erase, Finset.mem_range] at hj
      unfold inside
      rw [divide_seg_other hw hi p hj.2 hj.1]
    rw [this]
    omega
  have hnl : (s.divide i p).nextLeft = s.nextLeft + 1 := rfl
  have hq : (s.divide i p).queue.length = s.queue.length + 2 := rfl
  unfold potential
  rw [hnl, hq, Finset.sum_range_succ]
  omega

theorem SameShape.potential {s t : State K} (h : SameShape s t) (P : Finset (Point K)) :
    t.potential P = s.potential P := by
  unfold State.potential
  rw [h.queue, h.nextLeft]
  simp only [fun i => inside_congr P (h.seg i)]

theorem Elem.potential_eq {s s' : State K} {P : Finset (Point K)} (h : Elem s s') (hw : s.WF)
    (hP : BreakPoints s P) : s'.potential P = s.potential P := by
  cases h with
  | flags h _ => exact h.potential P
  | relation h => exact h.shape.potential P
  | divide i p hi hp hj => exact potential_divide_eq hw hi hp (hP.mem_of_divide hi hp hj)

theorem Elems.potential_eq {s s' : State K} {P : Finset (Point K)} (h : Elems s s') (hw : s.WF)
    (hP : BreakPoints s P) : s'.potential P = s.potential P := by
  induction h with
  | refl => rfl
  | tail h1 h2 ih =>
    exact (h2.potential_eq (h1.wf hw) (h1.potential hw hP).1).trans ih

end State

namespace eventsQueue

/-- The events handled so far, the queued ones and twice the contacts ahead make a constant. -/
theorem Reaches.potential {linear : Bool} {context : Context K} (hc : context.Exact) {stopX : K}
    {c d : Config K} {ems : List (Emitted K)} (h : Reaches linear context stopX c ems d)
    (hi : Inv c) {P : Finset (Point K)} (hP : BreakPoints c.s P)
    (len : ∀ (s : State K) (group : List Ev),
      (closeGroup linear context s group).1.length = group.length) :
    BreakPoints d.s P ∧
      ems.length + d.group.length + d.s.potential P = c.group.length + c.s.potential P := by
  induction h with
  | refl => exact ⟨hP, by simp⟩
  | @tail ems ems' d d' h1 h2 ih =>
    obtain ⟨hd, -⟩ := h1.inv hc hi
    obtain ⟨e, t, it, -, hel, -⟩ := sweepStep_ok hc hd h2
    obtain ⟨hP1, heq⟩ := ih
    have he := peek?_mem it.peek
    have h3 : BreakPoints (popped d.s e) P := ⟨hP1.start, hP1.finish, hP1.common⟩
    have hw := pop_wf hd.wf e
    have all : Elems (popped d.s e) d'.s := (it.rels hd).elems.trans hel
    have e1 := all.potential_eq hw h3
    refine ⟨(all.potential hw h3).1, ?_⟩
    have : (d.s.queue.erase e).length + 1 = d.s.queue.length := by
      rw [List.length_erase_of_mem he]
      have := List.length_pos_of_mem he
      omega
    have e2 : (popped d.s e).potential P + 1 = d.s.potential P := by
      have a1 : (popped d.s e).potential P = (d.s.queue.erase e).length
        + 2 * ∑ i ∈ Finset.range d.s.nextLeft, (d.s.inside P i).card := rfl
      have a2 : d.s.potential P = d.s.queue.length
        + 2 * ∑ i ∈ Finset.range d.s.nextLeft, (d.s.inside P i).card := rfl
      omega
    rw [List.length_append]
    rcases it.closed with ⟨-, rfl, -, -, e3⟩ | ⟨-, rfl, -, -, e3⟩
    · rw [e3, List.length_append, List.length_nil, List.length_singleton]
      omega
    · rw [e3, len, List.length_singleton]
      omega

/-- A sweep handles at most as many events as there are endpoints of pieces. -/
theorem sweep_length_le (linear : Bool) {context : Context K} (hc : context.Exact) (stopX : K)
    {s : State K} (h : s.Fresh)
    (len : ∀ (s : State K) (group : List Ev),
      (closeGroup linear context s group).1.length = group.length) :
    (∀ fuel, 2 * (s.nextLeft + contacts s.allSegs) < fuel →
      (sweepLoop linear context stopX fuel s [] ((peek? context s).map s.evStart) []).2
        ≠ .error .outOfFuel) ∧
    ∀ ems d, Reaches linear context stopX (initial context s) ems d →
      ems.length + d.group.length + d.s.queue.length ≤ 2 * (s.nextLeft + contacts s.allSegs) := by
  obtain ⟨P, hP, hin⟩ := exists_breakPoints_exact h.wf
  have e : s.potential P = 2 * (s.nextLeft + contacts s.allSegs) := by
    unfold State.potential
    rw [sum_inside hin, h.length]
    ring
  constructor
  · intro fuel hf
    exact sweepLoop_ne_outOfFuel hc fuel (c := initial context s) (initial_inv context h.wf) hP
      (e ▸ hf)
  · intro ems d hr
    obtain ⟨-, h2⟩ := hr.potential hc (initial_inv context h.wf) hP len
    have h3 : (initial context s).s.potential P = 2 * (s.nextLeft + contacts s.allSegs) := e
    have h4 : (initial context s).group.length = 0 := rfl
    have h5 : d.s.queue.length ≤ d.s.potential P := Nat.le_add_right _ _
    omega

/-- A sweep which is not stopped handles exactly as many events as there are endpoints of pieces. -/
theorem sweep_length_eq (linear : Bool) {context : Context K} (hc : context.Exact) (stopX : K)
    {s f : State K} (h : s.Fresh) (hcl : ¬ Clash s) (hf : (sweep linear context stopX s).2 = .ok f)
    (hx : ∀ b, ∀ p ∈ s.operand b, p.x ≤ stopX)
    (len : ∀ (s : State K) (group : List Ev),
      (closeGroup linear context s group).1.length = group.length) :
    (sweep linear context stopX s).1.length = 2 * (s.nextLeft + contacts s.allSegs) := by
  obtain ⟨P, hP, hin⟩ := exists_breakPoints_exact h.wf
  obtain ⟨ε, hε⟩ := exists_inclination P
  have c : Clock ε P s := ⟨h.wf, hP, hε⟩
  have e : s.potential P = 2 * (s.nextLeft + contacts s.allSegs) := by
    unfold State.potential
    rw [sum_inside hin, h.length]
    ring
  rcases sweep_ends linear hc stopX h.wf h.length with ⟨ems, d, h1, h2, h3, h4⟩ | ⟨h1, -⟩
  swap
  · rw [h1] at hf; cases hf
  obtain ⟨hd, hruns⟩ := h1.inv hc (initial_inv context h.wf)
  have hruns : Runs s d.s := hruns
  obtain ⟨hPd, hcount⟩ := h1.potential hc (initial_inv context h.wf) hP len
  have h5 : (initial context s).s.potential P = 2 * (s.nextLeft + contacts s.allSegs) := e
  have h6 : (initial context s).group.length = 0 := rfl
  rw [h3, List.length_append, len]
  suffices hz : d.s.potential P = 0 by omega
  have beyond := sweepStep_beyond h2
  obtain ⟨o, ho⟩ := hruns.refines h.wf
  have hempty : d.s.queue = [] := by
    rw [List.eq_nil_iff_forall_not_mem]
    intro x hm
    have hv := queued_valid hd.wf hm
    have := evStart_mem_operand hd.wf hv
    rw [ho.operand] at this
    exact absurd (hx _ _ this) (not_le.mpr (beyond x hm))
  unfold State.potential
  rw [hempty, List.length_nil, Nat.zero_add, Nat.mul_eq_zero]
  refine .inr (Finset.sum_eq_zero fun i hi => ?_)
  rw [Finset.mem_range] at hi
  rw [Finset.card_eq_zero, Finset.eq_empty_iff_forall_notMem]
  intro p hp
  classical
  simp only [inside, Finset.mem_filter] at hp
  obtain ⟨hpP, hpi⟩ := hp
  have hw := hd.wf
  obtain ⟨hpm, hp1, hp2⟩ := (hw.inner_iff hi).mp hpi
  -- the sweep has passed everything
  have hne : s.nextLeft ≠ 0 := fun h0 => by
    have := ho.lt i hi
    omega
  obtain ⟨e₀, he⟩ : ∃ e₀, peek? context s = some e₀ := by
    cases he : peek? context s with
    | none =>
      have := h.lefts 0 (Nat.pos_of_ne_zero hne)
      rw [peek?_none he] at this
      cases this
    | some e₀ => exact ⟨e₀, rfl⟩
  obtain ⟨q, tr, -⟩ := h1.track hc h c hcl he
  have cd := tr.moving.base.clock
  have rs := tr.resolved context beyond
  have inside : ∀ k < d.s.nextLeft, ∀ x ∈ (d.s.seg k).pts, x.x ≤ stopX := by
    intro k hk x hxk
    refine hx (d.s.lefts k).fromTest x ?_
    rw [← ho.operand]
    exact ⟨k, hk, rfl, hxk⟩
  -- the point is a contact of the original segments
  have ha := ho.lt i hi
  have sub := ho.subset i hi
  have inner : (s.seg (o i)).Inner p := by
    refine (h.wf.inner_iff ha).mpr ⟨sub hpm, ?_, ?_⟩
    · have := lo_le (sub (start_mem (d.s.seg i)))
      rw [h.wf.lo_seg ha] at this
      exact this.trans_lt hp1
    · have := le_hi (sub (finish_mem (d.s.seg i)))
      rw [h.wf.hi_seg ha] at this
      exact hp2.trans_le this
  have hcon : p ∈ contactPoints s.allSegs (s.seg (o i)) := by
    rw [← hin _ ha]
    simp only [State.inside, Finset.coe_filter, Set.mem_setOf_eq]
    exact ⟨hpP, inner⟩
  obtain ⟨v, hv, hm⟩ := hcon
  obtain ⟨b, hb, rfl⟩ := mem_allSegs.mp hv
  obtain ⟨-, hpb, hcase⟩ := (metAt_iff (h.wf.nondegenerate ha) (h.wf.nondegenerate hb)).mp hm
  obtain ⟨j, hj, rfl, hpj⟩ := ho.cover b hb p hpb
  by_cases hs : Same ε (d.s.seg i) (d.s.seg j)
  · have si := same_of_subset (c.times ha) (cd.times hi) (sub (start_mem _)) (sub (finish_mem _))
    have subj := ho.subset j hj
    have sj := same_of_subset (c.times hb) (cd.times hj) (subj (start_mem _)) (subj (finish_mem _))
    have hcol := (c.same_iff ha hb).mp ((si.trans hs).trans sj.symm)
    have hend := hcase.resolve_left (fun hn => hn hcol)
    have hlt := hw.lt j hj
    have hle : (d.s.lefts j).start ≤ p ∧ p ≤ d.s.leftEnd j := by
      have l1 := lo_le hpj
      have l2 := le_hi hpj
      rw [hw.lo_seg hj] at l1
      rw [hw.hi_seg hj] at l2
      exact ⟨l1, l2⟩
    have hendj : p = (d.s.lefts j).start ∨ p = d.s.leftEnd j := by
      rw [isEndpoint_iff] at hend
      rcases hend with hend | hend
      · refine .inl (le_antisymm ?_ hle.1)
        rw [hend]
        exact lo_le (subj (start_mem _))
      · refine .inr (le_antisymm hle.2 ?_)
        rw [hend]
        exact le_hi (subj (finish_mem _))
    have starts : (d.s.lefts i).start = (d.s.lefts j).start := by
      refine rs.same i hi j hj hs (inside i hi _ (start_mem (d.s.seg i)))
        (inside j hj _ (start_mem (d.s.seg j))) (hp1.trans_le hle.2) (hle.1.trans_lt hp2)
    rcases hendj with e | e
    · rw [starts, ← e] at hp1
      exact lt_irrefl _ hp1
    · have := rs.ends j hj i hi hs.symm starts.symm (inside j hj _ (finish_mem (d.s.seg j)))
      rw [this, ← e] at hp2
      exact lt_irrefl _ hp2
  · exact hpi.2 (rs.past i hi j hj hs p hpm hpj (inside i hi p hpm)).1

end eventsQueue

end Orient
