import Verif.Lemmas.Sweep.State
import Verif.Model.EventsQueue
import Verif.Spec.Context
import Verif.Lemmas.SegmentsRel

/-! What the detection of intersections does to the heap of events. -/

set_option linter.unusedSectionVars false

namespace Orient.eventsQueue

variable {K : Type} [Field K] [LinearOrder K] [IsStrictOrderedRing K]

open Segment State

/-- Events with different starts are ordered by them. -/
theorem keyLt_of_ne (context : Context K) (s : State K) {e e' : Ev} (h : s.evStart e ≠ s.evStart e') :
    keyLt context s e e' = decide (s.evStart e < s.evStart e') := by
  unfold keyLt
  simp only [ne_eq, ite_not]
  by_cases hx : (s.evStart e).x = (s.evStart e').x
  · have hy : (s.evStart e).y ≠ (s.evStart e').y := fun hy => h (Point.ext hx hy)
    rw [if_pos hx, if_neg hy]
    simp [Point.lt_iff, hx]
  · rw [if_neg hx]
    simp [Point.lt_iff, hx]

/-- The divisions made for overlapping segments `x`, `y`, of which `x` comes first. -/
inductive OverlapDivision (s : State K) (x y : Nat) : State K → Prop
  | same (h0 : (s.lefts x).start = (s.lefts y).start) (h1 : s.leftEnd x = s.leftEnd y) :
      OverlapDivision s x y s
  | «prefix» (h0 : (s.lefts x).start = (s.lefts y).start) (h1 : s.leftEnd x < s.leftEnd y) :
      OverlapDivision s x y (s.divide y (s.leftEnd x))
  | «suffix» (h0 : (s.lefts x).start < (s.lefts y).start) (h1 : s.leftEnd x = s.leftEnd y) :
      OverlapDivision s x y (s.divide x (s.lefts y).start)
  | inside (h0 : (s.lefts x).start < (s.lefts y).start) (h1 : s.leftEnd y < s.leftEnd x) :
      OverlapDivision s x y ((s.divide x (s.leftEnd y)).divide x (s.lefts y).start)
  | shifted (h0 : (s.lefts x).start < (s.lefts y).start) (h1 : s.leftEnd x < s.leftEnd y) :
      OverlapDivision s x y ((s.divide y (s.leftEnd x)).divide x (s.lefts y).start)

theorem divideOverlapping_cases (context : Context K) {s : State K} (h : s.WF) {a b : Nat}
    (ha : a < s.nextLeft) (hb : b < s.nextLeft) (hab : a ≠ b) :
    OverlapDivision s a b (divideOverlapping context s a b) ∨
      OverlapDivision s b a (divideOverlapping context s a b) := by
  have ra := h.leftRight a ha
  have rb := h.leftRight b hb
  have hr : ∀ i, (s.rights (s.lefts i).right).start = s.leftEnd i := fun i => rfl
  unfold divideOverlapping
  by_cases h0 : (s.lefts a).start = (s.lefts b).start
  · simp only [h0, decide_true, Bool.true_or, if_true]
    by_cases h1 : s.leftEnd a = s.leftEnd b
    · simp only [h1, decide_true, if_true]
      exact .inl (.same h0 h1)
    · simp only [h1, decide_false, Bool.false_or, Bool.false_eq_true, if_false]
      have hk : keyLt context s (.right (s.lefts b).right) (.right (s.lefts a).right)
          = decide (s.leftEnd b < s.leftEnd a) :=
        keyLt_of_ne context s (e := .right (s.lefts b).right)
          (e' := .right (s.lefts a).right) (fun e => h1 e.symm)
      rw [hk]
      simp only [decide_eq_true_eq]
      rcases lt_or_gt_of_ne h1 with h1 | h1
      · simp only [not_lt.mpr h1.le, if_false, rb.2, hr]
        exact .inl (.prefix h0 h1)
      · simp only [h1, if_true, ra.2, hr]
        exact .inr (.prefix h0.symm h1)
  · have hk0 : keyLt context s (.left b) (.left a)
        = decide ((s.lefts b).start < (s.lefts a).start) :=
      keyLt_of_ne context s (e := .left b) (e' := .left a) (fun e => h0 e.symm)
    simp only [h0, decide_false, Bool.false_or, hk0, Bool.false_eq_true, if_false]
    simp only [decide_eq_true_eq]
    by_cases h1 : s.leftEnd a = s.leftEnd b
    · simp only [h1, if_true]
      rcases lt_or_gt_of_ne h0 with h0 | h0
      · rw [if_neg (not_lt.mpr h0.le), if_neg (not_lt.mpr h0.le)]
        exact .inl (.suffix h0 h1)
      · rw [if_pos h0, if_pos h0]
        exact .inr (.suffix h0 h1.symm)
    · have hk : keyLt context s (.right (s.lefts b).right) (.right (s.lefts a).right)
          = decide (s.leftEnd b < s.leftEnd a) :=
        keyLt_of_ne context s (e := .right (s.lefts b).right)
          (e' := .right (s.lefts a).right) (fun e => h1 e.symm)
      simp only [h1, decide_false, Bool.false_or, hk, if_false]
      simp only [decide_eq_true_eq]
      rcases lt_or_gt_of_ne h1 with h1 | h1
      · simp only [not_lt.mpr h1.le, if_false, rb.2, hr]
        rcases lt_or_gt_of_ne h0 with h0 | h0
        · rw [if_neg (not_lt.mpr h0.le), if_neg (not_lt.mpr h0.le), if_neg hab]
          exact .inl (.shifted h0 h1)
        · rw [if_pos h0, if_pos h0, if_pos rfl]
          exact .inr (.inside h0 h1)
      · simp only [h1, if_true, ra.2, hr]
        rcases lt_or_gt_of_ne h0 with h0 | h0
        · rw [if_neg (not_lt.mpr h0.le), if_neg (not_lt.mpr h0.le), if_pos rfl]
          exact .inl (.inside h0 h1)
        · rw [if_pos h0, if_pos h0, if_neg (Ne.symm hab)]
          exact .inr (.shifted h0 h1)

/-- Overlapping segments of the heap: the lines are the same, and the middle part is common. -/
structure Overlapping (s : State K) (x y : Nat) : Prop where
  collinear : (s.seg x).Collinear (s.seg y)
  lt : (s.lefts x).start < s.leftEnd y
  lt' : (s.lefts y).start < s.leftEnd x

theorem Overlapping.symm {s : State K} (h : s.WF) {x y : Nat} (hx : x < s.nextLeft)
    (hy : y < s.nextLeft) (ho : Overlapping s x y) : Overlapping s y x :=
  ⟨ho.collinear.symm (h.nondegenerate hx) (h.nondegenerate hy), ho.lt', ho.lt⟩

theorem overlapping_iff {s : State K} (h : s.WF) {x y : Nat} (hx : x < s.nextLeft)
    (hy : y < s.nextLeft) :
    ((s.seg x).pts ∩ (s.seg y).pts).Nontrivial ↔ Overlapping s x y := by
  constructor
  · intro hn
    have hc := collinear_of_nontrivial (h.nondegenerate hy) hn
    obtain ⟨p, hp, q, hq, hne⟩ := hn
    wlog hlt : p < q generalizing p q
    · exact this q hq p hp hne.symm (lt_of_le_of_ne (not_lt.mp hlt) hne.symm)
    have h1 := lo_le hp.1
    have h2 := lo_le hp.2
    have h3 := le_hi hq.1
    have h4 := le_hi hq.2
    rw [h.lo_seg hx] at h1
    rw [h.lo_seg hy] at h2
    rw [h.hi_seg hx] at h3
    rw [h.hi_seg hy] at h4
    exact ⟨hc, (h1.trans_lt hlt).trans_le h4, (h2.trans_lt hlt).trans_le h3⟩
  · rintro ⟨hc, h1, h2⟩
    have hx' := h.nondegenerate hx
    have hy' := h.nondegenerate hy
    have hlt : max (s.seg x).lo (s.seg y).lo < min (s.seg x).hi (s.seg y).hi := by
      rw [h.lo_seg hx, h.lo_seg hy, h.hi_seg hx, h.hi_seg hy]
      exact max_lt (lt_min (h.lt x hx) h1) (lt_min h2 (h.lt y hy))
    refine ⟨max (s.seg x).lo (s.seg y).lo, ?_, min (s.seg x).hi (s.seg y).hi, ?_, hlt.ne⟩
    · rw [hc.mem_inter_iff hx' hy']
      refine ⟨?_, le_rfl, hlt.le⟩
      rcases max_choice (s.seg x).lo (s.seg y).lo with e | e <;> rw [e]
      · exact cross_eq_zero (lo_mem _)
      · exact cross_lo hc
    · rw [hc.mem_inter_iff hx' hy']
      refine ⟨?_, hlt.le, le_rfl⟩
      rcases min_choice (s.seg x).hi (s.seg y).hi with e | e <;> rw [e]
      · exact cross_eq_zero (hi_mem _)
      · exact cross_hi hc

theorem inner_of_between {s : State K} (h : s.WF) {x : Nat} (hx : x < s.nextLeft) {p : Point K}
    (hc : cross (s.lefts x).start (s.leftEnd x) p = 0) (h0 : (s.lefts x).start < p)
    (h1 : p < s.leftEnd x) : (s.seg x).Inner p := by
  rw [h.inner_iff hx]
  exact ⟨(mem_pts_iff_of_lt (h.lt x hx) p).mpr ⟨hc, h0.le, h1.le⟩, h0, h1⟩

theorem OverlapDivision.elems {s s' : State K} (h : s.WF) {x y : Nat} (hx : x < s.nextLeft)
    (hy : y < s.nextLeft) (hxy : x ≠ y) (ho : Overlapping s x y) (hd : OverlapDivision s x y s') :
    Elems s s' := by
  have hc := ho.collinear
  have hc' := (ho.symm h hx hy).collinear
  cases hd with
  | same h0 h1 => exact .refl s
  | «prefix» h0 h1 =>
    exact (Elem.divide y _ hy (inner_of_between h hy hc'.2 ho.lt' h1)
      ⟨x, hx, finish_mem _, .inr (.inr rfl)⟩).elems
  | «suffix» h0 h1 =>
    exact (Elem.divide x _ hx (inner_of_between h hx hc.1 h0 ho.lt')
      ⟨y, hy, start_mem _, .inr (.inl rfl)⟩).elems
  | inside h0 h1 =>
    have i1 := inner_of_between h hx hc.2 ho.lt h1
    have e1 := Elem.divide x _ hx i1 ⟨y, hy, finish_mem _, .inr (.inr rfl)⟩
    have w1 := e1.wf h
    have hx1 := lt_of_lt_of_le hx e1.nextLeft_le.1
    have hy1 := lt_of_lt_of_le hy e1.nextLeft_le.1
    refine e1.elems.tail (.divide x _ hx1 ?_ ⟨y, hy1, ?_, .inr (.inl ?_)⟩)
    · refine inner_of_between w1 hx1 ?_ ?_ ?_
      · rw [divide_start h hx _ hx, divide_leftEnd_self h hx]
        exact collinear_trans (h.nondegenerate hx) (cross_self_right _ _) hc.2 hc.1
      · rw [divide_start h hx _ hx]; exact h0
      · rw [divide_leftEnd_self h hx]; exact h.lt y hy
    · rw [← divide_start h hx _ hy]; exact start_mem _
    · rw [← divide_start h hx _ hy]; rfl
  | shifted h0 h1 =>
    have i1 := inner_of_between h hy hc'.2 ho.lt' h1
    have e1 := Elem.divide y _ hy i1 ⟨x, hx, finish_mem _, .inr (.inr rfl)⟩
    have w1 := e1.wf h
    have hx1 := lt_of_lt_of_le hx e1.nextLeft_le.1
    have hy1 := lt_of_lt_of_le hy e1.nextLeft_le.1
    refine e1.elems.tail (.divide x _ hx1 ?_ ⟨y, hy1, ?_, .inr (.inl ?_)⟩)
    · rw [divide_seg_other h hy _ hx hxy]
      exact inner_of_between h hx hc.1 h0 ho.lt'
    · rw [← divide_start h hy _ hy]; exact start_mem _
    · rw [← divide_start h hy _ hy]; rfl

theorem divideOverlapping_elems (context : Context K) {s : State K} (h : s.WF) {a b : Nat}
    (ha : a < s.nextLeft) (hb : b < s.nextLeft) (hab : a ≠ b) (ho : Overlapping s a b) :
    Elems s (divideOverlapping context s a b) := by
  rcases divideOverlapping_cases context h ha hb hab with hd | hd
  · exact hd.elems h ha hb hab ho
  · exact hd.elems h hb ha hab.symm (ho.symm h ha hb)

theorem divideAt_elems {s : State K} (h : s.WF) {a b : Nat} (ha : a < s.nextLeft)
    (hb : b < s.nextLeft) {p : Point K} (hp : (s.seg a).pts ∩ (s.seg b).pts = {p}) :
    Elems s (divideAt s a b p) := by
  have hmem : p ∈ (s.seg a).pts ∩ (s.seg b).pts := by rw [hp]; rfl
  have hab : a ≠ b := by
    rintro rfl
    rw [Set.inter_self] at hp
    have := pts_nontrivial (h.nondegenerate ha)
    rw [hp] at this
    exact Set.not_nontrivial_singleton this
  unfold divideAt
  simp only
  by_cases h1 : p ≠ (s.lefts a).start ∧ p ≠ s.leftEnd a
  · rw [if_pos h1]
    have i1 : (s.seg a).Inner p := ⟨hmem.1, by rintro (e | e); exacts [h1.1 e, h1.2 e]⟩
    have e1 : Elem s (s.divide a p) := by
      refine .divide a p ha i1 ⟨b, hb, hmem.2, .inl fun hc => ?_⟩
      have := Collinear.nontrivial_of_inner (h.nondegenerate ha) (h.nondegenerate hb) hc i1 hmem.2
      rw [hp] at this
      exact Set.not_nontrivial_singleton this
    split
    · next h2 =>
      have hb1 := lt_of_lt_of_le hb e1.nextLeft_le.1
      have ha1 := lt_of_lt_of_le ha e1.nextLeft_le.1
      refine e1.elems.tail (.divide b p hb1 ⟨?_, ?_⟩ ⟨a, ha1, ?_, .inr (.inr ?_)⟩)
      · rw [divide_seg_other h ha p hb hab.symm]; exact hmem.2
      · rintro (e | e)
        exacts [h2.1 e, h2.2 e]
      · rw [divide_seg_self h ha p]; exact finish_mem _
      · rw [divide_seg_self h ha p]
    · exact e1.elems
  · rw [if_neg h1]
    split
    · next h2 =>
      refine (Elem.divide b p hb ⟨hmem.2, ?_⟩ ⟨a, ha, hmem.1, .inr ?_⟩).elems
      · rintro (e | e)
        exacts [h2.1 e, h2.2 e]
      · by_contra hn
        exact h1 ⟨fun e => hn (.inl e), fun e => hn (.inr e)⟩
    · exact .refl s

/-- The single common point of touching or crossing segments is what the context returns. -/
theorem inter_of_relation {context : Context K} (hc : context.Exact) {t g : Segment K}
    (ht : t.Nondegenerate) (hg : g.Nondegenerate)
    (hr : context.segmentsRelation t g = .touch ∨ context.segmentsRelation t g = .cross) :
    t.pts ∩ g.pts = {context.segmentsIntersection t g} := by
  have hm := hc.intersection t g ht hg hr
  have hrel := hc.relation t g ht hg
  have : ∃ p, t.pts ∩ g.pts = {p} := by
    rcases hr with e | e <;> rw [e] at hrel <;> exact ⟨_, hrel.choose_spec.1⟩
  obtain ⟨p, hp⟩ := this
  rw [hp] at hm ⊢
  rw [hm]

theorem nontrivial_of_relation {context : Context K} (hc : context.Exact) {t g : Segment K}
    (ht : t.Nondegenerate) (hg : g.Nondegenerate)
    (h1 : ¬ (context.segmentsRelation t g = .touch ∨ context.segmentsRelation t g = .cross))
    (h2 : context.segmentsRelation t g ≠ .disjoint) : (t.pts ∩ g.pts).Nontrivial := by
  push Not at h1
  exact (hc.relation t g ht hg).nontrivial ht hg ⟨h1.1, h1.2, h2⟩

theorem detectIntersectionLinear_spec {context : Context K} (hc : context.Exact) {s : State K}
    (h : s.WF) {a b : Nat} (ha : a < s.nextLeft) (hb : b < s.nextLeft) :
    match detectIntersectionLinear context s a b with
    | .ok s' => Elems s s'
    | .error e => e = .valueError ∧ (s.lefts b).fromTest = (s.lefts a).fromTest ∧
        ((s.seg a).pts ∩ (s.seg b).pts).Nontrivial := by
  have ha' := h.nondegenerate ha
  have hb' := h.nondegenerate hb
  unfold detectIntersectionLinear
  simp only
  split_ifs with h1 h2 h3
  · exact divideAt_elems h ha hb (inter_of_relation hc ha' hb' h1)
  · exact ⟨rfl, h3, nontrivial_of_relation hc ha' hb' h1 h2⟩
  · have hn := nontrivial_of_relation hc ha' hb' h1 h2
    exact divideOverlapping_elems context h ha hb (by rintro rfl; exact h3 rfl)
      ((overlapping_iff h ha hb).mp hn)
  · exact .refl s

theorem sameShape_trans {s t u : State K} (h : SameShape s t) (h' : SameShape t u) :
    SameShape s u :=
  ⟨h'.rights.trans h.rights, h'.nextLeft.trans h.nextLeft, h'.nextRight.trans h.nextRight,
    h'.queue.trans h.queue, fun i => (h'.start i).trans (h.start i),
    fun i => (h'.right i).trans (h.right i), fun i => (h'.originalStart i).trans (h.originalStart i),
    fun i => (h'.fromTest i).trans (h.fromTest i),
    fun i => (h'.interiorToLeft i).trans (h.interiorToLeft i)⟩

/-- Assigning `overlapKind` to two events. -/
def setKind (s : State K) (a b : Nat) (kind : OverlapKind) : State K :=
  (s.setLeft a (fun e => { e with overlapKind := kind })).setLeft b
    (fun e => { e with overlapKind := kind })

theorem setKind_elem (s : State K) (a b : Nat) (kind : OverlapKind) :
    SameShape s (setKind s a b kind) ∧
    ∀ i, ((setKind s a b kind).lefts i).relation = (s.lefts i).relation := by
  refine ⟨sameShape_trans
    (sameShape_setLeft s a (fun e => { e with overlapKind := kind }) fun e => ⟨rfl, rfl, rfl, rfl, rfl⟩)
    (sameShape_setLeft _ b (fun e => { e with overlapKind := kind })
      fun e => ⟨rfl, rfl, rfl, rfl, rfl⟩), fun i => ?_⟩
  simp only [setKind, setLeft]
  split <;> split <;> rfl

/-- What `computePosition` assigns. -/
def positionOf (s : State K) (b i : Nat) : Bool :=
  if (s.lefts i).fromTest = (s.lefts b).fromTest then (s.lefts b).otherInteriorToLeft
  else (s.lefts b).interiorToLeft

theorem computePosition_some (s : State K) (b i : Nat) : computePosition s (some b) i =
    s.setLeft i (fun e => { e with otherInteriorToLeft := positionOf s b i }) := rfl

theorem computePosition_elem (s : State K) (below : Option Nat) (i : Nat) :
    SameShape s (computePosition s below i) ∧
    ∀ j, ((computePosition s below i).lefts j).relation = (s.lefts j).relation := by
  cases below with
  | none => exact ⟨.refl s, fun _ => rfl⟩
  | some b =>
    rw [computePosition_some]
    refine ⟨sameShape_setLeft s i (fun e => { e with otherInteriorToLeft := positionOf s b i })
      fun e => ⟨rfl, rfl, rfl, rfl, rfl⟩, fun j => ?_⟩
    simp only [setLeft]
    split <;> rfl

/-- The kind of overlap computed from the orientations. -/
def kindOf (s : State K) (a b : Nat) : OverlapKind :=
  if (s.lefts b).interiorToLeft = (s.lefts a).interiorToLeft
  then .sameOrientation else .differentOrientation

theorem detectIntersectionCompound_eq (context : Context K) (s : State K) (a b : Nat) :
    detectIntersectionCompound context s a b =
    if context.segmentsRelation (s.seg a) (s.seg b) = .touch ∨
        context.segmentsRelation (s.seg a) (s.seg b) = .cross then
      .ok (divideAt s a b (context.segmentsIntersection (s.seg a) (s.seg b)), false)
    else if context.segmentsRelation (s.seg a) (s.seg b) ≠ .disjoint then
      if (s.lefts b).fromTest = (s.lefts a).fromTest then .error .valueError
      else if (s.lefts a).start = (s.lefts b).start then
        .ok (divideOverlapping context (setKind s a b (kindOf s a b)) a b, true)
      else .ok (divideOverlapping context s a b, false)
    else .ok (s, false) := rfl

theorem detectIntersectionCompound_spec {context : Context K} (hc : context.Exact) {s : State K}
    (h : s.WF) {a b : Nat} (ha : a < s.nextLeft) (hb : b < s.nextLeft) :
    match detectIntersectionCompound context s a b with
    | .ok r => Elems s r.1
    | .error e => e = .valueError ∧ (s.lefts b).fromTest = (s.lefts a).fromTest ∧
        ((s.seg a).pts ∩ (s.seg b).pts).Nontrivial := by
  have ha' := h.nondegenerate ha
  have hb' := h.nondegenerate hb
  rw [detectIntersectionCompound_eq]
  split_ifs with h1 h2 h3 h4
  · exact divideAt_elems h ha hb (inter_of_relation hc ha' hb' h1)
  · exact ⟨rfl, h3, nontrivial_of_relation hc ha' hb' h1 h2⟩
  · have hn := nontrivial_of_relation hc ha' hb' h1 h2
    obtain ⟨k1, k2⟩ := setKind_elem s a b (kindOf s a b)
    have ho := (overlapping_iff h ha hb).mp hn
    refine (Elem.flags k1 k2).elems.trans (divideOverlapping_elems context (k1.wf h)
      (k1.nextLeft ▸ ha) (k1.nextLeft ▸ hb) (by rintro rfl; exact h3 rfl) ⟨?_, ?_, ?_⟩)
    · rw [k1.seg, k1.seg]; exact ho.collinear
    · rw [k1.start, k1.leftEnd]; exact ho.lt
    · rw [k1.start, k1.leftEnd]; exact ho.lt'
  · have hn := nontrivial_of_relation hc ha' hb' h1 h2
    exact divideOverlapping_elems context h ha hb (by rintro rfl; exact h3 rfl)
      ((overlapping_iff h ha hb).mp hn)
  · exact .refl s

end Orient.eventsQueue
