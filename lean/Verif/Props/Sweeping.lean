import Verif.Lemmas.Sweep.Settles
import Verif.Lemmas.Sweep.Collect
import Verif.Lemmas.Reference
import Verif.Lemmas.ValidCheck
import Mathlib.Algebra.Field.Rat
import Mathlib.Algebra.Order.Ring.Rat

/-! C19, C20, C27: sweeps terminate, fail only for operands that overlap themselves, and preserve the
operands. -/

set_option linter.unusedSectionVars false

namespace Orient.Props

open eventsQueue State

variable {K : Type} [Field K] [LinearOrder K] [IsStrictOrderedRing K]

/-! ### C19 -/

/-- The number of iterations of the loop of `sweep` in terms of the number of registered segments. -/
def iterationsBound (n : Nat) : Nat := 2 * n ^ 3 + 4 * n ^ 2 + 2 * n + 1

theorem enoughFuel_eq (s : State K) : enoughFuel s = iterationsBound s.nextLeft := by
  unfold enoughFuel iterationsBound
  ring

theorem register_nextLeft (s : State K) (b : Bool) (l : List (SegmentEndpoints K)) :
    (s.register b l).nextLeft = s.nextLeft + l.length := by
  unfold State.register
  induction l generalizing s with
  | nil => rfl
  | cons e l ih =>
    rw [List.foldl_cons, ih, registerOne_nextLeft, List.length_cons]
    omega

/-- A loop that has ended by itself does not use further iterations. -/
theorem sweepLoop_more (linear : Bool) (context : Context K) (stopX : K) {fuel : Nat} (c : Config K)
    (h : (sweepLoop linear context stopX fuel c.s c.line c.start c.group).2 ≠ .error .outOfFuel)
    (k : Nat) : sweepLoop linear context stopX (fuel + k) c.s c.line c.start c.group =
      sweepLoop linear context stopX fuel c.s c.line c.start c.group := by
  induction fuel generalizing c with
  | zero => exact absurd rfl h
  | succ fuel ih =>
    rw [sweepLoop_succ] at h
    rw [show fuel + 1 + k = (fuel + k) + 1 by omega, sweepLoop_succ, sweepLoop_succ]
    split at h
    · next hs => rfl
    · next hs => rfl
    · next ems c' hs =>
      rw [ih c' h]

/-- The events of the group are emitted one by one. -/
theorem closeGroup_length (linear : Bool) (context : Context K) (s : State K) (group : List Ev) :
    (closeGroup linear context s group).1.length = group.length := by
  unfold closeGroup
  generalize (if linear then detectCrossingAngles context s group else s) = t
  induction group generalizing t with
  | nil => rfl
  | cons e l ih =>
    unfold completeEventsRelations
    simp only [List.length_cons]
    rw [ih]

theorem sweepLoop_length (linear : Bool) (context : Context K) (stopX : K) (fuel : Nat) (c : Config K) :
    (sweepLoop linear context stopX fuel c.s c.line c.start c.group).1.length
      ≤ fuel + c.group.length := by
  induction fuel generalizing c with
  | zero => simp [sweepLoop]
  | succ fuel ih =>
    rw [sweepLoop_succ]
    have key : ∀ ems r, sweepStep linear context stopX c = some (ems, r) →
        ems.length ≤ c.group.length ∧
        ∀ c', r = .ok c' → ems.length + c'.group.length ≤ c.group.length + 1 := by
      intro ems r hs
      unfold sweepStep at hs
      split at hs
      · cases hs
      · split_ifs at hs
        simp only [Option.some.injEq, Prod.mk.injEq] at hs
        obtain ⟨rfl, rfl⟩ := hs
        constructor
        · split_ifs
          · simp
          · simp [closeGroup_length]
        · intro c' hr
          cases hh : handle linear context _ c.line _ with
          | error e => rw [hh] at hr; cases hr
          | ok q =>
            rw [hh] at hr
            have := Except.ok.inj hr
            subst this
            simp only
            split_ifs <;> simp [closeGroup_length]
    split
    · simp [closeGroup_length]
    · next hs =>
      have := (key _ _ hs).1
      simp only
      omega
    · next ems c' hs =>
      have h1 := (key _ _ hs).2 c' rfl
      have h2 := ih c'
      simp only [List.length_append]
      omega

/-- C19: with `n` registered segments — any non-degenerate segments on both sides — the loop of
`sweep` makes at most `2 n³ + 4 n² + 2 n + 1` iterations: given any bigger number of them it ends in
the same way, and not for the lack of iterations; it emits no more events than that. -/
theorem C19_sweep_terminates (linear : Bool) {context : Context K} (hc : context.Exact) (stopX : K)
    {goal test : List (SegmentEndpoints K)} (hg : ∀ e ∈ goal, e.1 ≠ e.2)
    (ht : ∀ e ∈ test, e.1 ≠ e.2) {fuel : Nat}
    (hf : iterationsBound (goal.length + test.length) ≤ fuel) :
    let s := (State.empty.register false goal).register true test
    let start := (peek? context s).map s.evStart
    (sweepLoop linear context stopX fuel s [] start []).2 ≠ .error .outOfFuel ∧
    sweepLoop linear context stopX fuel s [] start [] = sweep linear context stopX s ∧
    (sweep linear context stopX s).1.length ≤ iterationsBound (goal.length + test.length) := by
  intro s start
  have hfresh : s.Fresh := (Fresh.empty.register false hg).register true ht
  have hn : s.nextLeft = goal.length + test.length := by
    show ((State.empty.register false goal).register true test).nextLeft = _
    rw [register_nextLeft, register_nextLeft]
    simp [State.empty]
  have hfuel : enoughFuel s = iterationsBound (goal.length + test.length) := by
    rw [enoughFuel_eq, hn]
  have h1 := sweep_ne_outOfFuel linear hc stopX hfresh.wf hfresh.length
  have h2 : sweepLoop linear context stopX fuel s [] start [] = sweep linear context stopX s := by
    obtain ⟨k, rfl⟩ := Nat.exists_eq_add_of_le hf
    rw [← hfuel]
    exact sweepLoop_more linear context stopX (initial context s) h1 k
  refine ⟨h2 ▸ h1, h2, ?_⟩
  rw [← hfuel]
  have := sweepLoop_length linear context stopX (enoughFuel s) (initial context s)
  rwa [show (initial context s).group.length = 0 from rfl, Nat.add_zero] at this

/-! ### C20 -/

/-- The only exception that a computation with the operands drawn with `A` and `B` can end with is
`ValueError`, and then only if two segments of one operand overlap. -/
def RaisesOnlyForOverlaps (A B : List (Segment K)) (x : Py Relation) : Prop :=
  ∀ e, x = .error e → e = .valueError ∧ (SelfOverlap A ∨ SelfOverlap B)

theorem RaisesOnlyForOverlaps.of_settles {A B : List (Segment K)} {x : Py Relation}
    (h : Settles (Tangled B A) x) : RaisesOnlyForOverlaps A B x :=
  fun e he => ⟨(h e he).1, (h e he).2.selfOverlap.symm⟩

/-- No exception if the segments of each operand have at most a point in common pairwise. -/
theorem RaisesOnlyForOverlaps.exists_ok {A B : List (Segment K)} {x : Py Relation}
    (h : RaisesOnlyForOverlaps A B x) (hA : ¬ SelfOverlap A) (hB : ¬ SelfOverlap B) :
    ∃ r, x = .ok r := by
  cases x with
  | ok r => exact ⟨r, rfl⟩
  | error e => exact absurd (h e rfl).2 (by rintro (h | h); exacts [hA h, hB h])

variable {context : Context K} (hc : context.Exact)

include hc

theorem C20_multisegment_in_multisegment {a : Multisegment K} {b : Multisegment K}
    (ha : ∀ u ∈ a.segments, u.Nondegenerate) (hb : ∀ u ∈ b.segments, u.Nondegenerate) :
    RaisesOnlyForOverlaps a.segments b.segments (planar.multisegmentInMultisegment a b context) :=
  .of_settles (multisegmentMultisegment_settles hc hb ha)

theorem C20_multisegment_in_contour {a : Multisegment K} {b : Contour K}
    (ha : ∀ u ∈ a.segments, u.Nondegenerate) (hb : b.Drawn) :
    RaisesOnlyForOverlaps a.segments b.edgeList (planar.multisegmentInContour a b context) :=
  .of_settles (contourMultisegment_settles hc hb.2 ha)

theorem C20_contour_in_contour {a : Contour K} {b : Contour K}
    (ha : a.Drawn) (hb : b.Drawn) :
    RaisesOnlyForOverlaps a.edgeList b.edgeList (planar.contourInContour a b context) :=
  .of_settles (contourContour_settles hc hb ha)

theorem C20_multisegment_in_region {a : Multisegment K} {b : Region K}
    (ha : ∀ u ∈ a.segments, u.Nondegenerate) (hb : Contour.Drawn b) :
    RaisesOnlyForOverlaps a.segments (Contour.edgeList b) (planar.multisegmentInRegion a b context) :=
  .of_settles (regionMultisegment_settles hc hb ha)

theorem C20_contour_in_region {a : Contour K} {b : Region K}
    (ha : a.Drawn) (hb : Contour.Drawn b) :
    RaisesOnlyForOverlaps a.edgeList (Contour.edgeList b) (planar.contourInRegion a b context) :=
  .of_settles (regionContour_settles hc hb ha _)

theorem C20_region_in_region {a : Region K} {b : Region K}
    (ha : Contour.Drawn a) (hb : Contour.Drawn b) :
    RaisesOnlyForOverlaps (Contour.edgeList a) (Contour.edgeList b) (planar.regionInRegion a b context) :=
  .of_settles (regionRegion_settles hc hb ha _ _)

theorem C20_segment_in_multiregion {a : Segment K} {b : Multiregion K}
    (ha : a.Nondegenerate) (hb : Multiregion.Drawn b) :
    RaisesOnlyForOverlaps [a] (Multiregion.edgeList b) (planar.segmentInMultiregion a b context) :=
  .of_settles (multiregionMultisegment_settles hc hb (t := ⟨[a]⟩) (by simpa using ha) _)

theorem C20_multisegment_in_multiregion {a : Multisegment K} {b : Multiregion K}
    (ha : ∀ u ∈ a.segments, u.Nondegenerate) (hb : Multiregion.Drawn b) :
    RaisesOnlyForOverlaps a.segments (Multiregion.edgeList b) (planar.multisegmentInMultiregion a b context) :=
  .of_settles (multiregionMultisegment_settles hc hb ha _)

theorem C20_contour_in_multiregion {a : Contour K} {b : Multiregion K}
    (ha : a.Drawn) (hb : Multiregion.Drawn b) :
    RaisesOnlyForOverlaps a.edgeList (Multiregion.edgeList b) (planar.contourInMultiregion a b context) :=
  .of_settles (multiregionContour_settles hc hb ha _)

theorem C20_region_in_multiregion {a : Region K} {b : Multiregion K}
    (ha : Contour.Drawn a) (hb : Multiregion.Drawn b) :
    RaisesOnlyForOverlaps (Contour.edgeList a) (Multiregion.edgeList b) (planar.regionInMultiregion a b context) :=
  .of_settles (multiregionRegion_settles hc hb ha _)

theorem C20_multiregion_in_multiregion {a : Multiregion K} {b : Multiregion K}
    (ha : Multiregion.Drawn a) (hb : Multiregion.Drawn b) :
    RaisesOnlyForOverlaps (Multiregion.edgeList a) (Multiregion.edgeList b) (planar.multiregionInMultiregion a b context) :=
  .of_settles (multiregionMultiregion_settles hc hb ha)

theorem C20_multisegment_in_polygon {a : Multisegment K} {b : Polygon K}
    (ha : ∀ u ∈ a.segments, u.Nondegenerate) (hb : b.Drawn) :
    RaisesOnlyForOverlaps a.segments b.edgeList (planar.multisegmentInPolygon a b context) :=
  .of_settles (polygonMultisegment_settles hc hb ha)

theorem C20_contour_in_polygon {a : Contour K} {b : Polygon K}
    (ha : a.Drawn) (hb : b.Drawn) :
    RaisesOnlyForOverlaps a.edgeList b.edgeList (planar.contourInPolygon a b context) :=
  .of_settles (polygonContour_settles hc hb ha)

theorem C20_region_in_polygon {a : Region K} {b : Polygon K}
    (ha : Contour.Drawn a) (hb : b.Drawn) :
    RaisesOnlyForOverlaps (Contour.edgeList a) b.edgeList (planar.regionInPolygon a b context) :=
  .of_settles (polygonRegion_settles hc hb ha)

theorem C20_multiregion_in_polygon {a : Multiregion K} {b : Polygon K}
    (ha : Multiregion.Drawn a) (hb : b.Drawn) :
    RaisesOnlyForOverlaps (Multiregion.edgeList a) b.edgeList (planar.multiregionInPolygon a b context) :=
  .of_settles (polygonMultiregion_settles hc hb ha)

theorem C20_polygon_in_polygon {a : Polygon K} {b : Polygon K}
    (ha : a.Drawn) (hb : b.Drawn) :
    RaisesOnlyForOverlaps a.edgeList b.edgeList (planar.polygonInPolygon a b context) :=
  .of_settles (polygonPolygon_settles hc hb ha)

theorem C20_segment_in_multipolygon {a : Segment K} {b : Multipolygon K}
    (ha : a.Nondegenerate) (hb : b.Drawn) :
    RaisesOnlyForOverlaps [a] b.edgeList (planar.segmentInMultipolygon a b context) :=
  .of_settles (multipolygonMultisegment_settles hc hb (t := ⟨[a]⟩) (by simpa using ha))

theorem C20_multisegment_in_multipolygon {a : Multisegment K} {b : Multipolygon K}
    (ha : ∀ u ∈ a.segments, u.Nondegenerate) (hb : b.Drawn) :
    RaisesOnlyForOverlaps a.segments b.edgeList (planar.multisegmentInMultipolygon a b context) :=
  .of_settles (multipolygonMultisegment_settles hc hb ha)

theorem C20_contour_in_multipolygon {a : Contour K} {b : Multipolygon K}
    (ha : a.Drawn) (hb : b.Drawn) :
    RaisesOnlyForOverlaps a.edgeList b.edgeList (planar.contourInMultipolygon a b context) :=
  .of_settles (multipolygonContour_settles hc hb ha)

theorem C20_region_in_multipolygon {a : Region K} {b : Multipolygon K}
    (ha : Contour.Drawn a) (hb : b.Drawn) :
    RaisesOnlyForOverlaps (Contour.edgeList a) b.edgeList (planar.regionInMultipolygon a b context) :=
  .of_settles (multipolygonRegion_settles hc hb ha)

theorem C20_multiregion_in_multipolygon {a : Multiregion K} {b : Multipolygon K}
    (ha : Multiregion.Drawn a) (hb : b.Drawn) :
    RaisesOnlyForOverlaps (Multiregion.edgeList a) b.edgeList (planar.multiregionInMultipolygon a b context) :=
  .of_settles (multipolygonMultiregion_settles hc hb ha)

theorem C20_polygon_in_multipolygon {a : Polygon K} {b : Multipolygon K}
    (ha : a.Drawn) (hb : b.Drawn) :
    RaisesOnlyForOverlaps a.edgeList b.edgeList (planar.polygonInMultipolygon a b context) :=
  .of_settles (multipolygonPolygon_settles hc hb ha)

theorem C20_multipolygon_in_multipolygon {a : Multipolygon K} {b : Multipolygon K}
    (ha : a.Drawn) (hb : b.Drawn) :
    RaisesOnlyForOverlaps a.edgeList b.edgeList (planar.multipolygonInMultipolygon a b context) :=
  .of_settles (multipolygonMultipolygon_settles hc hb ha)
omit hc

/-- Two polygons with holes that cross each other: nothing is raised. -/
example : let a : Polygon ℚ := ⟨⟨[⟨0, 0⟩, ⟨4, 0⟩, ⟨4, 4⟩, ⟨0, 4⟩]⟩, [⟨[⟨1, 1⟩, ⟨2, 1⟩, ⟨2, 2⟩]⟩]⟩
    let b : Polygon ℚ := ⟨⟨[⟨1, 1⟩, ⟨6, 1⟩, ⟨6, 6⟩, ⟨1, 6⟩]⟩, []⟩
    a.Drawn ∧ b.Drawn ∧ planar.polygonInPolygon a b reference.context = .ok .overlap := by
  refine ⟨⟨⟨by simp, ?_⟩, ?_⟩, ⟨⟨by simp, ?_⟩, by simp [Multiregion.Drawn]⟩, by decide +kernel⟩
  · show ∀ e ∈ Contour.edgeList _, e.start ≠ e.finish
    decide +kernel
  · intro c hc
    rw [List.mem_singleton] at hc
    subst hc
    refine ⟨by simp, ?_⟩
    show ∀ e ∈ Contour.edgeList _, e.start ≠ e.finish
    decide +kernel
  · show ∀ e ∈ Contour.edgeList _, e.start ≠ e.finish
    decide +kernel

/-- A multisegment with overlapping segments for which the error is raised. -/
example : let a : Multisegment ℚ := ⟨[⟨⟨0, 0⟩, ⟨2, 0⟩⟩, ⟨⟨1, 0⟩, ⟨3, 0⟩⟩]⟩
    let b : Multisegment ℚ := ⟨[⟨⟨0, 1⟩, ⟨3, -1⟩⟩]⟩
    (∀ u ∈ a.segments, u.Nondegenerate) ∧ (∀ u ∈ b.segments, u.Nondegenerate) ∧
    planar.multisegmentInMultisegment a b reference.context = .error .valueError := by
  refine ⟨?_, ?_, by decide +kernel⟩
  · show ∀ u ∈ (_ : List (Segment ℚ)), u.start ≠ u.finish
    decide +kernel
  · show ∀ u ∈ (_ : List (Segment ℚ)), u.start ≠ u.finish
    decide +kernel

/-! ### C27 -/

theorem register_old {s : State K} (h : s.Fresh) (b : Bool) {l : List (SegmentEndpoints K)}
    (hl : ∀ e ∈ l, e.1 ≠ e.2) {i : Nat} (hi : i < s.nextLeft) :
    (s.register b l).seg i = s.seg i ∧ ((s.register b l).lefts i).fromTest = (s.lefts i).fromTest := by
  unfold State.register
  induction l generalizing s with
  | nil => exact ⟨rfl, rfl⟩
  | cons e l ih =>
    rw [List.foldl_cons]
    obtain ⟨h1, h2⟩ := ih (h.registerOne b (hl e (by simp))) (fun e' he' => hl e' (by simp [he']))
      (Nat.lt_succ_of_lt hi)
    rw [h1, h2, registerOne_seg_old b e h.wf hi, registerOne_lefts_old s b e hi]
    exact ⟨rfl, rfl⟩

theorem register_new {s : State K} (h : s.Fresh) (b : Bool) {l : List (SegmentEndpoints K)}
    (hl : ∀ e ∈ l, e.1 ≠ e.2) {k : Nat} (hk : k < l.length) :
    (s.register b l).seg (s.nextLeft + k) = sorted l[k] ∧
      ((s.register b l).lefts (s.nextLeft + k)).fromTest = b := by
  induction l generalizing s k with
  | nil => simp at hk
  | cons e l ih =>
    have hr : s.register b (e :: l) = (s.registerOne b e).register b l := rfl
    have hf := h.registerOne b (hl e (by simp))
    have hl' : ∀ e' ∈ l, e'.1 ≠ e'.2 := fun e' he' => hl e' (by simp [he'])
    rw [hr]
    cases k with
    | zero =>
      obtain ⟨h1, h2⟩ := register_old hf b hl' (i := s.nextLeft)
        (by rw [registerOne_nextLeft]; omega)
      rw [Nat.add_zero, h1, h2, registerOne_seg_new, registerOne_lefts_new]
      exact ⟨rfl, rfl⟩
    | succ k =>
      have := ih hf hl' (k := k) (by simpa using hk)
      rw [registerOne_nextLeft, show s.nextLeft + 1 + k = s.nextLeft + (k + 1) by omega] at this
      simpa using this

/-- The segment registered as number `i`. -/
theorem registered_seg {goal test : List (SegmentEndpoints K)} (hg : ∀ e ∈ goal, e.1 ≠ e.2)
    (ht : ∀ e ∈ test, e.1 ≠ e.2) {i : Nat}
    (hi : i < ((State.empty.register false goal).register true test).nextLeft) :
    ∃ e, (goal ++ test)[i]? = some e ∧
      ((State.empty.register false goal).register true test).seg i = sorted e ∧
      ((((State.empty.register false goal).register true test).lefts i).fromTest = true ↔
        goal.length ≤ i) := by
  have hG := (Fresh.empty (K := K)).register false hg
  have hn : ((State.empty : State K).register false goal).nextLeft = goal.length := by
    rw [register_nextLeft]; simp [State.empty]
  rw [register_nextLeft, hn] at hi
  by_cases h : i < goal.length
  · obtain ⟨h1, h2⟩ := register_old hG true ht (i := i) (by omega)
    obtain ⟨h3, h4⟩ := register_new Fresh.empty false hg (k := i) h
    rw [show (State.empty : State K).nextLeft = 0 from rfl, Nat.zero_add] at h3 h4
    refine ⟨goal[i], by rw [List.getElem?_append_left h, List.getElem?_eq_getElem h], ?_, ?_⟩
    · rw [h1]; exact h3
    · rw [h2]
      exact iff_of_false (by rw [h4]; simp) (by omega)
  · obtain ⟨k, rfl⟩ := Nat.exists_eq_add_of_le (not_lt.mp h)
    have hk : k < test.length := by omega
    obtain ⟨h1, h2⟩ := register_new hG true ht (k := k) hk
    rw [hn] at h1 h2
    refine ⟨test[k], ?_, h1, by simp [h2]⟩
    rw [List.getElem?_append_right (by omega)]
    simp [hk]

/-- C27: at every moment of a sweep the pieces of each operand make up that operand; every piece `i`
is a part of one of the registered segments, that with the number `o i`, and different pieces of one
registered segment have no common points except an endpoint of both. -/
theorem C27_operands_preserved (linear : Bool) (hc : context.Exact) (stopX : K)
    {goal test : List (SegmentEndpoints K)} (hg : ∀ e ∈ goal, e.1 ≠ e.2)
    (ht : ∀ e ∈ test, e.1 ≠ e.2) {ems : List (Emitted K)} {d : Config K}
    (h : Reaches linear context stopX
      (initial context ((State.empty.register false goal).register true test)) ems d) :
    (∀ x, (∃ i < d.s.nextLeft, (d.s.lefts i).fromTest = false ∧ x ∈ (d.s.seg i).pts) ↔
      ∃ e ∈ goal, x ∈ (⟨e.1, e.2⟩ : Segment K).pts) ∧
    (∀ x, (∃ i < d.s.nextLeft, (d.s.lefts i).fromTest = true ∧ x ∈ (d.s.seg i).pts) ↔
      ∃ e ∈ test, x ∈ (⟨e.1, e.2⟩ : Segment K).pts) ∧
    ∃ o : Nat → Nat,
      (∀ i < d.s.nextLeft, (d.s.seg i).Nondegenerate ∧
        ∃ e, (goal ++ test)[o i]? = some e ∧ (d.s.seg i).pts ⊆ (⟨e.1, e.2⟩ : Segment K).pts ∧
          ((d.s.lefts i).fromTest = true ↔ goal.length ≤ o i)) ∧
      ∀ i < d.s.nextLeft, ∀ j < d.s.nextLeft, i ≠ j → o i = o j →
        ∀ x ∈ (d.s.seg i).pts, x ∈ (d.s.seg j).pts →
          (d.s.seg i).IsEndpoint x ∧ (d.s.seg j).IsEndpoint x := by
  have hr := registered (Matches.refl goal) (Matches.refl test)
    (fun u hu => by obtain ⟨e, he, rfl⟩ := List.mem_map.mp hu; exact hg e he)
    (fun u hu => by obtain ⟨e, he, rfl⟩ := List.mem_map.mp hu; exact ht e he)
  have hw := hr.fresh.wf
  obtain ⟨hd, hruns⟩ := h.inv hc (initial_inv context hw)
  obtain ⟨o, ho⟩ := hruns.refines hw
  have hdw := hd.wf
  refine ⟨fun x => ?_, fun x => ?_, o, fun i hi => ?_, fun i hi j hj hij e x hx hx' => ?_⟩
  · have := Set.ext_iff.mp ((ho.operand false).trans hr.goalPts) x
    refine Iff.trans this ?_
    simp [segsPts, ofEndpoints]
  · have := Set.ext_iff.mp ((ho.operand true).trans hr.testPts) x
    refine Iff.trans this ?_
    simp [segsPts, ofEndpoints]
  · refine ⟨(hdw.lt i hi).ne, ?_⟩
    obtain ⟨e, h1, h2, h3⟩ := registered_seg hg ht (ho.lt i hi)
    refine ⟨e, h1, ?_, ?_⟩
    · have := ho.subset i hi
      rw [show (initial context ((State.empty.register false goal).register true test)).s =
        (State.empty.register false goal).register true test from rfl, h2, pts_sorted] at this
      exact this
    · rw [ho.fromTest i hi]; exact h3
  · have key : ∀ i < d.s.nextLeft, ∀ j < d.s.nextLeft, x ∈ (d.s.seg i).pts → x ∈ (d.s.seg j).pts →
        d.s.leftEnd i ≤ (d.s.lefts j).start →
        (d.s.seg i).IsEndpoint x ∧ (d.s.seg j).IsEndpoint x := by
      intro i hi j hj hx hx' hle
      have h1 : x ≤ d.s.leftEnd i := hdw.hi_seg hi ▸ Segment.le_hi hx
      have h2 : (d.s.lefts j).start ≤ x := hdw.lo_seg hj ▸ Segment.lo_le hx'
      exact ⟨.inr (le_antisymm h1 (hle.trans h2)), .inl (le_antisymm (h1.trans hle) h2)⟩
    rcases ho.apart i hi j hj hij e with hle | hle
    · exact key i hi j hj hx hx' hle
    · exact (key j hj i hi hx' hx hle).symm

/-- The first iterations of a loop. -/
def iterate (linear : Bool) (context : Context K) (stopX : K) : Nat → Config K → Option (Config K)
  | 0, c => some c
  | n + 1, c =>
    match iterate linear context stopX n c with
    | some d =>
      match sweepStep linear context stopX d with
      | some (_, .ok d') => some d'
      | _ => none
    | none => none

theorem iterate_reaches {linear : Bool} {context : Context K} {stopX : K} {n : Nat} {c d : Config K}
    (h : iterate linear context stopX n c = some d) :
    ∃ ems, Reaches linear context stopX c ems d := by
  induction n generalizing d with
  | zero => cases h; exact ⟨[], .refl⟩
  | succ n ih =>
    unfold iterate at h
    split at h
    · next d' hd =>
      obtain ⟨ems, he⟩ := ih hd
      split at h
      · next ems' d'' hs => cases h; exact ⟨_, he.tail hs⟩
      · cases h
    · cases h

/-- Two crossing segments have become four pieces after two iterations. -/
example : ∃ ems d, Reaches true (reference.context : Context ℚ) 5 (initial reference.context
      ((State.empty.register false [(⟨0, 0⟩, ⟨2, 2⟩)]).register true [(⟨0, 2⟩, ⟨2, 0⟩)])) ems d ∧
    d.s.nextLeft = 4 ∧ d.s.seg 0 = ⟨⟨0, 0⟩, ⟨1, 1⟩⟩ := by
  have h : ∀ {P : Config ℚ → Prop} [DecidablePred P] {n : Nat} {c : Config ℚ},
      (match iterate true reference.context 5 n c with | some d => decide (P d) | none => false) = true →
      ∃ ems d, Reaches true (reference.context : Context ℚ) 5 c ems d ∧ P d := by
    intro P _ n c h
    split at h
    · next d hd =>
      obtain ⟨ems, he⟩ := iterate_reaches hd
      exact ⟨ems, d, he, of_decide_eq_true h⟩
    · cases h
  exact h (P := fun d => d.s.nextLeft = 4 ∧ d.s.seg 0 = ⟨⟨0, 0⟩, ⟨1, 1⟩⟩) (n := 2) (by decide +kernel)

end Orient.Props
