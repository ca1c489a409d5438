import Verif.Lemmas.Sweep.Step
import Verif.Lemmas.Sweep.Group
import Verif.Lemmas.Sweep.Collect
import Mathlib.Order.Interval.Set.Infinite

/-! What the emitted relations tell. -/

set_option linter.unusedSectionVars false

namespace Orient.eventsQueue

variable {K : Type} [Field K] [LinearOrder K] [IsStrictOrderedRing K]

open Segment State

/-! ### points outside of a finite set -/

/-- Times just after a given one avoid all the later times of finitely many points. -/
theorem exists_gap (ε : K) (P : Finset (Point K)) (a : K) :
    ∃ t, a < t ∧ ∀ q ∈ P, a < q.time ε → t < q.time ε := by
  classical
  induction P using Finset.induction_on with
  | empty =>
    obtain ⟨t, ht⟩ := exists_gt a
    exact ⟨t, ht, by simp⟩
  | insert q P _ ih =>
    obtain ⟨t, h1, h2⟩ := ih
    by_cases hq : a < q.time ε
    · obtain ⟨t', k1, k2⟩ := exists_between (lt_min h1 hq)
      refine ⟨t', k1, fun x hx h => ?_⟩
      rcases Finset.mem_insert.mp hx with rfl | hx
      · exact k2.trans_le (min_le_right _ _)
      · exact (k2.trans_le (min_le_left _ _)).trans (h2 x hx h)
    · refine ⟨t, h1, fun x hx h => ?_⟩
      rcases Finset.mem_insert.mp hx with rfl | hx
      · exact absurd h hq
      · exact h2 x hx h

/-- A segment is not a finite set. -/
theorem exists_not_mem {u : Segment K} (hu : u.Nondegenerate) (P : Finset (Point K)) :
    ∃ x ∈ u.pts, x ∉ P := by
  classical
  have hinf : (Set.Icc (0 : K) 1).Infinite := Set.Icc_infinite zero_lt_one
  have hinj : Set.InjOn (lerp u.start u.finish) (Set.Icc (0 : K) 1) := by
    intro a _ b _ h
    by_contra hne
    apply hu
    have hx := congrArg Point.x h
    have hy := congrArg Point.y h
    simp only [lerp] at hx hy
    have hd : a - b ≠ 0 := sub_ne_zero.mpr hne
    refine Point.ext ?_ ?_
    · have : (a - b) * (u.start.x - u.finish.x) = 0 := by linear_combination -hx
      rcases mul_eq_zero.mp this with e | e
      · exact absurd e hd
      · linarith
    · have : (a - b) * (u.start.y - u.finish.y) = 0 := by linear_combination -hy
      rcases mul_eq_zero.mp this with e | e
      · exact absurd e hd
      · linarith
  obtain ⟨x, hx, hP⟩ := (hinf.image hinj).exists_notMem_finset P
  obtain ⟨t, ht, rfl⟩ := hx
  exact ⟨_, ⟨t, ht.1, ht.2, rfl⟩, hP⟩

/-- A piece which is a part of an operand starts on a piece of the operand which goes the same way. -/
theorem Clock.cover {ε : K} {P : Finset (Point K)} {s : State K} (c : Clock ε P s) {i : Nat}
    (hi : i < s.nextLeft) {b : Bool} (h : (s.seg i).pts ⊆ s.operand b) :
    ∃ j < s.nextLeft, (s.lefts j).fromTest = b ∧ Same ε (s.seg i) (s.seg j) ∧
      (s.lefts j).start ≤ (s.lefts i).start ∧ (s.lefts i).start < s.leftEnd j := by
  obtain ⟨t, h1, h2⟩ := exists_gap ε P ((s.lefts i).start.time ε)
  have hT := c.times hi
  have hx : (s.seg i).pointAt ε t ∈ (s.seg i).pts :=
    pointAt_mem hT h1.le (h2 _ (c.points.finish i hi) hT).le
  have ht : ((s.seg i).pointAt ε t).time ε = t := pointAt_time _ _
  set x := (s.seg i).pointAt ε t
  obtain ⟨j, hj, hb, hx'⟩ := h hx
  obtain ⟨k1, k2, -⟩ := (mem_pts_iff_height (c.times hj) x).mp hx'
  rw [ht] at k1 k2
  refine ⟨j, hj, hb, ?_, ?_, ?_⟩
  · by_contra hn
    have := h2 x (c.mem hi hj hn hx hx') (by rw [ht]; exact h1)
    rw [ht] at this
    exact lt_irrefl _ this
  · rw [← c.le_iff (c.points.start j hj) (c.points.start i hi)]
    by_contra hn
    exact absurd (h2 _ (c.points.start j hj) (not_le.mp hn)) (not_lt.mpr k1)
  · rw [← c.lt_iff (c.points.start i hi) (c.points.finish j hj)]
    exact h1.trans_le k2

/-- A common piece of the operands is a common piece of two pieces of them. -/
theorem Clock.shares {ε : K} {P : Finset (Point K)} {s : State K} (c : Clock ε P s) {u : Segment K}
    (hu : u.Nondegenerate) (h1 : u.pts ⊆ s.operand true) (h2 : u.pts ⊆ s.operand false) :
    ∃ x ∈ u.pts, ∃ i < s.nextLeft, ∃ j < s.nextLeft, (s.lefts i).fromTest = true ∧
      (s.lefts j).fromTest = false ∧ Same ε (s.seg i) (s.seg j) ∧ (s.lefts i).start < x ∧
      x < s.leftEnd i ∧ (s.lefts j).start < x ∧ x < s.leftEnd j := by
  obtain ⟨x, hx, hP⟩ := exists_not_mem hu P
  obtain ⟨i, hi, bi, mi⟩ := h1 hx
  obtain ⟨j, hj, bj, mj⟩ := h2 hx
  refine ⟨x, hx, i, hi, j, hj, bi, bj, ?_, ?_, ?_, ?_, ?_⟩
  · by_contra hn
    exact hP (c.mem hi hj hn mi mj)
  · exact lt_of_le_of_ne (c.start_le hi mi) fun e => hP (e ▸ c.points.start i hi)
  · exact lt_of_le_of_ne (c.le_end hi mi) fun e => hP (e ▸ c.points.finish i hi)
  · exact lt_of_le_of_ne (c.start_le hj mj) fun e => hP (e ▸ c.points.start j hj)
  · exact lt_of_le_of_ne (c.le_end hj mj) fun e => hP (e ▸ c.points.finish j hj)

/-! ### closed groups -/

/-- The pieces of events can only become shorter. -/
theorem _root_.Orient.State.Elem.piece {s s' : State K} (h : Elem s s') (hw : s.WF) {e : Ev} (he : s.Valid e) :
    (s'.seg (s'.leftOf e)).pts ⊆ (s.seg (s.leftOf e)).pts := by
  cases h with
  | flags h _ => rw [SameShape.leftOf h, h.seg]
  | relation h => rw [SameShape.leftOf h.shape, h.shape.seg]
  | divide i p hi hp _ =>
    obtain ⟨s1, s2, -⟩ := divide_parts hw hi hp
    have old : ∀ j < s.nextLeft, ((s.divide i p).seg j).pts ⊆ (s.seg j).pts := by
      intro j hj
      by_cases hij : j = i
      · subst hij; exact s1
      · rw [divide_seg_other hw hi p hj hij]
    cases e with
    | left j => exact old j he
    | right r =>
      simp only [State.leftOf]
      by_cases hne : r = (s.lefts i).right
      · subst hne
        rw [divide_rights_self hw hi p, (hw.leftRight i hi).2]
        exact s2
      · rw [divide_rights_other hw hi p he hne]
        exact old _ (hw.rightLeft r he).1

theorem _root_.Orient.State.Elems.piece {s s' : State K} (h : Elems s s') (hw : s.WF) {e : Ev} (he : s.Valid e) :
    (s'.seg (s'.leftOf e)).pts ⊆ (s.seg (s.leftOf e)).pts := by
  induction h with
  | refl => exact subset_rfl
  | tail h1 h2 ih => exact (h2.piece (h1.wf hw) (h1.valid he)).trans ih

/-- What has been found of the events at the points for which `q` holds. -/
structure Told (ε : K) (s : State K) (q : Point K → Prop) (ems : List (Emitted K)) : Prop where
  overlap : ∀ i < s.nextLeft, ∀ j < s.nextLeft, Same ε (s.seg i) (s.seg j) →
    (s.lefts i).fromTest ≠ (s.lefts j).fromTest → (s.lefts i).start = (s.lefts j).start →
    q (s.lefts i).start → (s.lefts i).relation = .overlap ∧ ∃ em ∈ ems, em.relation = .overlap
  common : ∀ e e', s.Valid e → s.Valid e' → s.evFromTest e ≠ s.evFromTest e' →
    s.evStart e = s.evStart e' → q (s.evStart e) → ∃ em ∈ ems, em.relation ≠ .disjoint
  crossed : ∀ e e', s.Valid e → s.Valid e' → s.evFromTest e ≠ s.evFromTest e' →
    s.evStart e = s.evStart e' → q (s.evStart e) → Amid s e → Amid s e' →
    ∃ em ∈ ems, Big em.relation ∧ em.fromTest = s.evFromTest e ∧
      (s.seg (s.leftOf e)).pts ⊆ (⟨em.start, em.finish⟩ : Segment K).pts
  subset : ∀ b, s.operand b ⊆ s.operand (!b) → ∀ em ∈ ems, em.fromTest = b → em.relation = .overlap

theorem Told.pop {ε : K} {s : State K} {q : Point K → Prop} {ems : List (Emitted K)}
    (h : Told ε s q ems) (e : Ev) : Told ε (popped s e) q ems := ⟨h.overlap, h.common, h.crossed, h.subset⟩

theorem Told.imp {ε : K} {s : State K} {q q' : Point K → Prop} {ems : List (Emitted K)}
    (h : Told ε s q ems) (hq : ∀ e, s.Valid e → q' (s.evStart e) → q (s.evStart e)) :
    Told ε s q' ems :=
  ⟨fun i hi j hj h1 h2 h3 h4 => h.overlap i hi j hj h1 h2 h3 (hq (.left i) hi h4),
    fun e e' hv hv' h1 h2 h3 => h.common e e' hv hv' h1 h2 (hq e hv h3),
    fun e e' hv hv' h1 h2 h3 => h.crossed e e' hv hv' h1 h2 (hq e hv h3), h.subset⟩

theorem operand_elems {s s' : State K} (hw : s.WF) (h : Elems s s') (b : Bool) :
    s'.operand b = s.operand b := by
  obtain ⟨o, ho⟩ := h.runs.refines hw
  exact ho.operand b

theorem Told.keep {ε : K} {P : Finset (Point K)} {s s' : State K} (c : Clock ε P s)
    {q : Point K → Prop} {ems : List (Emitted K)} (h : Told ε s q ems) (he : Elems s s')
    (hr : ∀ i < s.nextLeft, (s'.lefts i).relation = (s.lefts i).relation)
    (hq : ∀ e, s'.Valid e → q (s'.evStart e) → s.Valid e) : Told ε s' q ems := by
  have hw := c.wf
  refine ⟨fun i hi j hj h1 h2 h3 h4 => ?_, fun e e' hv hv' h1 h2 h3 => ?_,
    fun e e' hv hv' h1 h2 h3 h4 h5 => ?_, fun b hb => ?_⟩
  · have hi' : i < s.nextLeft := hq (.left i) hi h4
    have hj' : j < s.nextLeft := hq (.left j) hj (by change q (s'.lefts j).start; rw [← h3]; exact h4)
    obtain ⟨si, ti⟩ := he.evStart hw (e := .left i) hi'
    obtain ⟨sj, tj⟩ := he.evStart hw (e := .left j) hj'
    change (s'.lefts i).start = (s.lefts i).start at si
    change (s'.lefts j).start = (s.lefts j).start at sj
    change (s'.lefts i).fromTest = (s.lefts i).fromTest at ti
    change (s'.lefts j).fromTest = (s.lefts j).fromTest at tj
    rw [hr i hi']
    rw [ti, tj] at h2
    rw [si, sj] at h3
    rw [si] at h4
    exact h.overlap i hi' j hj' ((c.same_congr he hi' hj').mp h1) h2 h3 h4
  · have hv1 := hq e hv h3
    have hv2 := hq e' hv' (h2 ▸ h3)
    obtain ⟨a1, a2⟩ := he.evStart hw hv1
    obtain ⟨b1, b2⟩ := he.evStart hw hv2
    rw [a2, b2] at h1
    rw [a1, b1] at h2
    rw [a1] at h3
    exact h.common e e' hv1 hv2 h1 h2 h3
  · have hv1 := hq e hv h3
    have hv2 := hq e' hv' (h2 ▸ h3)
    obtain ⟨a1, a2⟩ := he.evStart hw hv1
    obtain ⟨b1, b2⟩ := he.evStart hw hv2
    unfold Amid at h4 h5
    rw [a2, b2] at h1
    rw [a1, b1] at h2
    rw [a1] at h3
    rw [a1, he.evOriginalStart hw hv1] at h4
    rw [b1, he.evOriginalStart hw hv2] at h5
    obtain ⟨em, hem, k1, k2, k3⟩ := h.crossed e e' hv1 hv2 h1 h2 h3 h4 h5
    exact ⟨em, hem, k1, k2.trans a2.symm, (he.piece hw hv1).trans k3⟩
  · rw [operand_elems hw he, operand_elems hw he] at hb
    exact h.subset b hb

theorem Told.close {ε : K} {P : Finset (Point K)} {s : State K} (c : Clock ε P s) {p : Point K}
    {ems : List (Emitted K)} (h : Told ε s (· < p) ems) (linear : Bool) (context : Context K)
    {group : List Ev} (hg : GroupOK s p group)
    (full : ∀ e, s.Valid e → s.evStart e = p → e ∈ group)
    (res : ∀ i < s.nextLeft, ∀ j < s.nextLeft, Same ε (s.seg i) (s.seg j) → (s.lefts i).start ≤ p →
      (s.lefts j).start ≤ p → (s.lefts i).start < s.leftEnd j → (s.lefts j).start < s.leftEnd i →
      (s.lefts i).start = (s.lefts j).start)
    (ends : ∀ i < s.nextLeft, ∀ j < s.nextLeft, Same ε (s.seg i) (s.seg j) → (s.lefts i).start = p →
      (s.lefts j).start = p → s.leftEnd i = s.leftEnd j) :
    Told ε (closeGroup linear context s group).2 (· ≤ p)
      (ems ++ (closeGroup linear context s group).1) := by
  have hw := c.wf
  obtain ⟨u, a1, a2⟩ := closeGroup_up linear context s group
  obtain ⟨k1, -, -⟩ := closeGroup_spec linear context hw hg
  set s' := (closeGroup linear context s group).2
  have new : ∀ i < s.nextLeft, ∀ j < s.nextLeft, Same ε (s.seg i) (s.seg j) →
      (s.lefts i).fromTest ≠ (s.lefts j).fromTest → (s.lefts i).start = (s.lefts j).start →
      (s.lefts i).start = p → ∀ t, Up s t → ∀ e, s.leftOf e = i → s.evStart e = p →
      (∀ x ∈ group, s.evFromTest x ≠ s.evFromTest e → Marked t e x) →
      (t.lefts i).relation = .overlap := by
    intro i hi j hj h1 h2 h3 h4 t ut e he _ hm
    have hj' : Ev.left j ∈ group := full (.left j) hj (h3.symm.trans h4)
    have hne : s.evFromTest (.left j) ≠ s.evFromTest e := by
      unfold State.evFromTest; rw [he]; exact h2.symm
    have m := hm _ hj' hne
    have o := m.overlap
    rw [ut.leftOf, ut.leftOf, he, ut.shape.seg, ut.shape.seg] at o
    refine o ?_
    exact Segment.ext h3 (ends i hi j hj h1 h4 (h3 ▸ h4))
  refine ⟨fun i hi j hj h1 h2 h3 h4 => ?_, fun e e' hv hv' h1 h2 h3 => ?_,
    fun e e' hv hv' h1 h2 h3 h4 h5 => ?_, fun b hb em hem hfb => ?_⟩
  · rw [u.shape.nextLeft] at hi hj
    rw [u.shape.seg, u.shape.seg] at h1
    rw [u.shape.fromTest, u.shape.fromTest] at h2
    rw [u.shape.start, u.shape.start] at h3
    rw [u.shape.start] at h4
    rcases h4.lt_or_eq with h4 | h4
    · obtain ⟨r, em, hem, hr⟩ := h.overlap i hi j hj h1 h2 h3 h4
      exact ⟨u.overlap i r, em, List.mem_append_left _ hem, hr⟩
    · obtain ⟨em, hem, t, t1, t2, rfl, t3⟩ := a2 (.left i) (full (.left i) hi h4)
      have o := new i hi j hj h1 h2 h3 h4 t t1 (.left i) rfl h4 t3
      exact ⟨t2.overlap i o, _, List.mem_append_right _ hem, o⟩
  · have hv1 : s.Valid e := by
      cases e with
      | left i => exact (show i < s.nextLeft from u.shape.nextLeft ▸ hv)
      | right i => exact (show i < s.nextRight from u.shape.nextRight ▸ hv)
    have hv2 : s.Valid e' := by
      cases e' with
      | left i => exact (show i < s.nextLeft from u.shape.nextLeft ▸ hv')
      | right i => exact (show i < s.nextRight from u.shape.nextRight ▸ hv')
    rw [u.evFromTest, u.evFromTest] at h1
    rw [SameShape.evStart u.shape, SameShape.evStart u.shape] at h2
    rw [SameShape.evStart u.shape] at h3
    rcases h3.lt_or_eq with h3 | h3
    · obtain ⟨em, hem, hr⟩ := h.common e e' hv1 hv2 h1 h2 h3
      exact ⟨em, List.mem_append_left _ hem, hr⟩
    · obtain ⟨em, hem, t, t1, t2, rfl, t3⟩ := a2 e (full e hv1 h3)
      exact ⟨_, List.mem_append_right _ hem, by
        have m := (t3 e' (full e' hv2 (h2 ▸ h3)) h1.symm).some
        rw [t1.leftOf] at m
        exact m⟩
  · have hv1 : s.Valid e := by
      cases e with
      | left i => exact (show i < s.nextLeft from u.shape.nextLeft ▸ hv)
      | right i => exact (show i < s.nextRight from u.shape.nextRight ▸ hv)
    have hv2 : s.Valid e' := by
      cases e' with
      | left i => exact (show i < s.nextLeft from u.shape.nextLeft ▸ hv')
      | right i => exact (show i < s.nextRight from u.shape.nextRight ▸ hv')
    rw [u.evFromTest, u.evFromTest] at h1
    rw [SameShape.evStart u.shape, SameShape.evStart u.shape] at h2
    rw [SameShape.evStart u.shape] at h3
    rcases h3.lt_or_eq with h3 | h3
    · obtain ⟨em, hem, k1, k2, k3⟩ :=
        h.crossed e e' hv1 hv2 h1 h2 h3 ((u.amid e).mp h4) ((u.amid e').mp h5)
      refine ⟨em, List.mem_append_left _ hem, k1, by rw [u.evFromTest]; exact k2, ?_⟩
      rw [u.leftOf, u.shape.seg]; exact k3
    · obtain ⟨em, hem, t, t1, t2, rfl, t3⟩ := a2 e (full e hv1 h3)
      refine ⟨_, List.mem_append_right _ hem, ?_, ?_, ?_⟩
      · have m := (t3 e' (full e' hv2 (h2 ▸ h3)) h1.symm).big
          ((t1.amid e).mpr ((u.amid e).mp h4)) ((t1.amid e').mpr ((u.amid e').mp h5))
        rw [t1.leftOf] at m
        exact m
      · rw [u.evFromTest]; exact t1.shape.fromTest _
      · rw [u.leftOf, u.shape.seg, ← t1.shape.seg]; exact subset_rfl
  · rw [operand_elems hw k1.elems, operand_elems hw k1.elems] at hb
    rcases List.mem_append.mp hem with hem | hem
    · exact h.subset b hb em hem hfb
    · obtain ⟨e, he, t, t1, t2, rfl, t3⟩ := a1 em hem
      obtain ⟨hv, hst⟩ := hg e he
      have hi := hw.leftOf_lt hv
      have hb' : (s.lefts (s.leftOf e)).fromTest = b := by
        rw [← hfb]; exact (t1.shape.fromTest _).symm
      have hle : (s.lefts (s.leftOf e)).start ≤ p := by
        rw [← hst]
        exact c.start_le hi (hw.evStart_endpoint hv).mem
      have hsub : (s.seg (s.leftOf e)).pts ⊆ s.operand (!b) := by
        refine Set.Subset.trans ?_ hb
        rw [← hb']; exact seg_subset_operand s hi
      obtain ⟨j, hj, bj, hs, l1, l2⟩ := Clock.cover c hi hsub
      have eq := res _ hi j hj hs hle (l1.trans hle) l2 (l1.trans_lt (hw.lt _ hi))
      have hne : (s.lefts (s.leftOf e)).fromTest ≠ (s.lefts j).fromTest := by
        rw [hb', bj]; cases b <;> simp
      change (t.lefts (s.leftOf e)).relation = .overlap
      rcases hle.lt_or_eq with hlt | heq
      · exact t1.overlap _ (h.overlap _ hi j hj hs hne eq hlt).1
      · exact new _ hi j hj hs hne eq heq t t1 e rfl hst t3

end Orient.eventsQueue
