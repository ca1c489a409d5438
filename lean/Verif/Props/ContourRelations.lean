import Verif.Lemmas.Contours
import Verif.Lemmas.Sweep.Complete
import Verif.Props.Ranges
import Verif.Props.RegionRelations

/-! C36: the relation of contours. -/

set_option linter.unusedSectionVars false

namespace Orient.Props

open eventsQueue State

variable {K : Type} [Field K] [LinearOrder K] [IsStrictOrderedRing K]

/-- What `process_closed_linear_queue` answers about registered simple contours. -/
theorem contours_closedLinear {context : Context K} (hc : context.Exact) {s : State K} (hf : s.Fresh)
    {a b : Contour K} (ha : a.Simple) (hb : b.Simple) {MG MT : List (Segment K × Bool)}
    (hG : (s.marks false).Perm MG) (hT : (s.marks true).Perm MT)
    (g : Outline MG b.edgeList b.interior b.exterior) (t : Outline MT a.edgeList a.interior a.exterior)
    {mg mt : K} (bg : ∀ x ∈ b.pts, x.x ≤ mg) (bt : ∀ x ∈ a.pts, x.x ≤ mt) :
    ∃ r, runClosedLinear context s (min mg mt) = .ok r ∧
      (ContoursRel a b r ∨ (r = .touch ∧ ContoursRel a b .cross ∧
        ∀ p ∈ a.pts ∩ b.pts, p ∈ a.vertices ∨ p ∈ b.vertices)) ∧
      (r = .cross ↔ ¬ SharesPiece a.pts b.pts ∧
        ∃ p ∈ a.pts ∩ b.pts, p ∉ a.vertices ∧ p ∉ b.vertices) := by
  obtain ⟨ε, P, f, S, A, eG, eT, pG, pT⟩ := Outline.scene hc hf hG hT g t bg bt
  replace eG : s.operand false = b.pts := eG
  replace eT : s.operand true = a.pts := eT
  have hends : sweep false context (min mg mt) s = ((sweep false context (min mg mt) s).1, .ok f) :=
    Prod.ext rfl S.ends
  have tOut := S.outside_iff (b := true) (A false)
  have gOut := S.outside_iff (b := false) (A true)
  have tIn := S.inside_iff (b := true) (A false)
  have gIn := S.inside_iff (b := false) (A true)
  have ov := S.swept.shares_iff (sweep_complete false S.exact _ S.fresh S.clash S.ends)
    (S.max false) (S.max true) S.stop
  have dj := S.disjoint_iff
  simp only [eG, eT, Bool.false_eq_true, if_true, if_false] at tOut gOut tIn gIn ov dj
  -- reported crossings
  have crossed : (∃ e ∈ (sweep false context (min mg mt) s).1, e.relation = .cross) →
      ((a.pts ∩ b.interior).Nonempty ∧ (a.pts ∩ b.exterior).Nonempty) := by
    rintro ⟨e, he, hx⟩
    obtain ⟨u, hu, v, hv, bu, bv, hn, p, pu, pv⟩ :=
      sweep_crossing S.exact _ S.fresh S.clock S.clash S.ends e he hx
    have := crossing_sides (b := false) S.clock S.clash (A false)
      (hb.neat.up.perm pG.symm).proper hu hv bu bv hn pu pv
    simpa only [Bool.not_false, eT, Bool.false_eq_true, if_false] using this
  have inner : ¬ SharesPiece a.pts b.pts → (∃ p ∈ a.pts ∩ b.pts, ¬ (p ∈ a.vertices ∨ p ∈ b.vertices)) →
      ∃ e ∈ (sweep false context (min mg mt) s).1, e.relation = .cross := by
    rintro hn ⟨p, ⟨pa, pb⟩, hv⟩
    push Not at hv
    have inn : ∀ (w : Bool) (c : Contour K), (s.segs w).Perm (c.edgeList.map Segment.up) →
        s.operand w = c.pts → p ∈ c.pts → p ∉ c.vertices →
        ∃ u < s.nextLeft, (s.lefts u).fromTest = w ∧ (s.seg u).Inner p ∧ (s.seg u).pts ⊆ c.pts := by
      intro w c hp ho hm hnv
      obtain ⟨u, hu, hw, hmu⟩ := (ho ▸ hm : p ∈ s.operand w)
      refine ⟨u, hu, hw, ⟨hmu, fun he => hnv ?_⟩, fun z hz => ho ▸ ⟨u, hu, hw, hz⟩⟩
      obtain ⟨e, he', hue⟩ := List.mem_map.mp (hp.mem_iff.mp (State.mem_segs.mpr ⟨u, hu, hw, rfl⟩))
      rw [← hue, Segment.up_endpoint] at he
      rcases he with rfl | rfl
      · exact Contour.start_mem_vertices he'
      · exact Contour.finish_mem_vertices he'
    obtain ⟨u, hu, wu, iu, su⟩ := inn true a pT eT pa hv.1
    obtain ⟨v, hv', wv, iv, sv⟩ := inn false b pG eG pb hv.2
    obtain ⟨e, he, hx | hx⟩ := sweep_crossed false S.exact _ S.fresh S.clash S.ends hu hv'
      (by rw [wu, wv]; decide) iu iv (le_min (bg _ pb) (bt _ pa)) (by
        rintro ⟨w, w0, w1, w2⟩
        exact hn ⟨w, w0, w1.trans su, w2.trans sv⟩)
    · exact ⟨e, he, hx⟩
    · exact absurd (ov.mp ⟨e, he, hx⟩) hn
  obtain ⟨r, hr, f1, f2, f3, f4, f5, f6, f7⟩ := C28_closed_linear context
    (sweep false context (min mg mt) s).1 f
  have hr : runClosedLinear context s (min mg mt) = .ok r := by
    unfold runClosedLinear; rw [hends]; exact hr
  have range := runClosedLinear_answers context s (min mg mt) r hr
  refine ⟨r, hr, ?_, ?_⟩
  rotate_left
  · beta_reduce at f5
    rw [f5, tOut, gOut, tIn, gIn, ov]
    constructor
    · rintro ⟨h1, h2, h3, h4⟩
      refine ⟨h3, ?_⟩
      have : ∃ e ∈ (sweep false context (min mg mt) s).1, e.relation = .cross := by
        refine h4.resolve_right fun h => h ⟨fun k => hb.inside_of_both ha k h2,
          fun k => ha.inside_of_both hb k h1⟩
      obtain ⟨e, he, hx⟩ := this
      obtain ⟨u, hu, v, hv, bu, bv, -, p, pu, pv⟩ :=
        sweep_crossing S.exact _ S.fresh S.clock S.clash S.ends e he hx
      have out : ∀ (w : Bool) (c : Contour K), c.Simple → (s.segs w).Perm (c.edgeList.map Segment.up) →
          ∀ u < s.nextLeft, (s.lefts u).fromTest = w → (s.seg u).Inner p → p ∉ c.vertices := by
        intro w c hs hp u hu hw hi hn
        obtain ⟨e, he', hue⟩ := List.mem_map.mp (hp.mem_iff.mp (State.mem_segs.mpr ⟨u, hu, hw, rfl⟩))
        rw [← hue] at hi
        exact hi.2 (Segment.up_endpoint.mpr (hs.endpoint_of_vertex he' hn (Segment.pts_up e ▸ hi.1)))
      exact ⟨p, ⟨eT ▸ ⟨u, hu, bu, pu.1⟩, eG ▸ ⟨v, hv, bv, pv.1⟩⟩, out true a ha pT u hu bu pu,
        out false b hb pG v hv bv pv⟩
    · rintro ⟨h1, p, hp, h2, h3⟩
      have hx := inner h1 ⟨p, hp, fun h => h.elim h2 h3⟩
      have := crossed hx
      exact ⟨(ha.both_symm hb this).2, this.2, h1, .inl hx⟩
  beta_reduce at f1 f2 f3 f4 f5 f6 f7
  rw [tOut, gOut] at f1
  rw [tOut, gOut, gIn] at f2
  rw [tOut, gOut, tIn] at f3
  rw [tOut, gOut, tIn, gIn, ov] at f4 f5 f6 f7
  have sub : ∀ {a b : Contour K}, ¬ (a.pts ∩ b.exterior).Nonempty → ¬ (a.pts ∩ b.interior).Nonempty →
      a.pts ⊆ b.pts := by
    intro a b h1 h2 z hz
    by_contra hn
    rcases Contour.cover hn with h | h
    · exact h2 ⟨z, hz, h⟩
    · exact h1 ⟨z, hz, h⟩
  have meet : (∃ e ∈ (sweep false context (min mg mt) s).1, e.relation = .touch) →
      (a.pts ∩ b.pts).Nonempty := by
    rintro ⟨e, he, hx⟩
    rw [Set.nonempty_iff_ne_empty, ne_eq, ← dj]
    intro h
    rw [h e he] at hx
    cases hx
  cases r with
  | equal =>
    obtain ⟨h1, h2⟩ := f1.mp rfl
    exact .inl (ha.eq_of_none_outside hb h2 h1)
  | composite =>
    obtain ⟨h1, ⟨z, z1, z2⟩, h3⟩ := f2.mp rfl
    have := ha.pts_eq_of_subset hb (sub h1 h3)
    exact absurd (this ▸ z1) z2.1
  | component =>
    obtain ⟨⟨z, z1, z2⟩, h1, h3⟩ := f3.mp rfl
    have := hb.pts_eq_of_subset ha (sub h1 h3)
    exact absurd (this ▸ z1) z2.1
  | overlap =>
    obtain ⟨h1, h2⟩ := f4.mp rfl
    refine .inl ⟨fun h => ?_, h1⟩
    have key : (b.pts ∩ a.exterior).Nonempty ∨ (a.pts ∩ b.exterior).Nonempty := by
      rcases h2 with (⟨-, h, -⟩ | ⟨h, -⟩) | ⟨h, -⟩
      · exact .inr h
      · exact .inl h
      · exact .inl h
    rcases key with ⟨z, z1, z2⟩ | ⟨z, z1, z2⟩
    · exact z2.1 (h ▸ z1)
    · exact z2.1 (h ▸ z1)
  | cross =>
    obtain ⟨h1, h2, h3, h4⟩ := f5.mp rfl
    refine .inl ⟨h3, ?_⟩
    rcases h4 with h4 | h4
    · exact crossed h4
    · refine ⟨?_, h2⟩
      by_contra hn
      have : (b.pts ∩ a.interior).Nonempty := by
        by_contra hn'
        exact h4 ⟨fun h => absurd h hn, fun h => absurd h hn'⟩
      exact hn (ha.inside_of_both hb this h1)
  | touch =>
    obtain ⟨h1, h2, h3⟩ := f6.mp rfl
    by_cases hx : (a.pts ∩ b.interior).Nonempty ∧ (a.pts ∩ b.exterior).Nonempty
    · refine .inr ⟨rfl, ⟨h2, hx⟩, fun p hp => ?_⟩
      by_contra hn
      have hx' := ha.both_symm hb hx
      rcases h3 with (⟨h, -⟩ | ⟨-, h, -⟩) | ⟨-, -, h, -⟩
      · exact h hx'.2
      · exact h hx.2
      · exact h (inner h2 ⟨p, hp, hn⟩)
    · exact .inl ⟨h2, meet h1, hx⟩
  | disjoint =>
    obtain ⟨h1, h2, h3⟩ := f7.mp rfl
    have h4 : ¬ ∃ e ∈ (sweep false context (min mg mt) s).1, e.relation = .cross := by
      intro h
      have hx := crossed h
      have hx' := ha.both_symm hb hx
      rcases h3 with (⟨h, -⟩ | ⟨-, h, -⟩) | ⟨-, -, h', -⟩
      · exact h hx'.2
      · exact h hx.2
      · exact h' h
    refine .inl (dj.mp fun e he => ?_)
    cases hre : e.relation with
    | disjoint => rfl
    | touch => exact absurd ⟨e, he, hre⟩ h1
    | cross => exact absurd ⟨e, he, hre⟩ h4
    | overlap => exact absurd (ov.mp ⟨e, he, hre⟩) h2
  | _ => exact absurd range (by decide)

theorem contours_answer {context : Context K} (hc : context.Exact) {a b : Contour K}
    (ha : a.Simple) (hb : b.Simple) :
    ∃ r, planar.contourInContour a b context = .ok r ∧
      (ContoursRel a b r ∨ (r = .touch ∧ ContoursRel a b .cross ∧
        ∀ p ∈ a.pts ∩ b.pts, p ∈ a.vertices ∨ p ∈ b.vertices)) ∧
      (r = .cross ↔ ¬ SharesPiece a.pts b.pts ∧
        ∃ p ∈ a.pts ∩ b.pts, p ∉ a.vertices ∧ p ∉ b.vertices) := by
  unfold planar.contourInContour contour.relateContour
  have boxA := hc.contourBox a ha.ne_nil
  have boxB := hc.contourBox b hb.ne_nil
  by_cases h : box.disjointWith (context.contourBox b) (context.contourBox a) = true
  · refine ⟨.disjoint, by simp [h, pure, Except.pure], .inl ?_, by simp, ?_⟩
    · exact (Set.inter_comm _ _).trans (box.inter_empty boxB boxA h)
    · rintro ⟨-, p, ⟨h1, h2⟩, -⟩
      exact absurd (box.inter_empty boxB boxA h) (Set.nonempty_iff_ne_empty.mp ⟨p, h2, h1⟩)
  simp only
  rw [if_neg h]
  obtain ⟨t, he⟩ := contour.equal_ok hb.ne_nil ha.ne_nil context
  rw [he]
  cases t with
  | true =>
    have hsc : a.SameCycle b := ((C24_shortcut_iff hc ha).mp he).symm
    refine ⟨.equal, rfl, .inl hsc.pts, by simp, fun h => absurd ?_ h.1⟩
    exact (hsc.pts : a.pts = b.pts) ▸ ha.sharesPiece
  | false =>
    obtain ⟨lb, hlb, nb, ob⟩ := hb.oriented hc
    obtain ⟨la, hla, na, oa⟩ := ha.oriented hc
    obtain ⟨m1, m2⟩ := marks_registered nb na
    have hf := ((Fresh.empty : (State.empty : State K).Fresh).register false nb).register true na
    obtain ⟨r, hr, h⟩ := contours_closedLinear hc hf ha hb (.of_eq m1) (.of_eq m2) ob oa
      boxB.le_maxX boxA.le_maxX
    refine ⟨r, ?_, h⟩
    rw [← hr, hlb, hla]
    rfl

/-- C36: `contour_in_contour` always answers for simple contours, and the answer is the relation of the
curves, except that contours are answered `TOUCH` instead of `CROSS` if they cross at vertices only. -/
theorem C36_contour_in_contour_partial {context : Context K} (hc : context.Exact) {a b : Contour K}
    (ha : a.Simple) (hb : b.Simple) :
    ∃ r, planar.contourInContour a b context = .ok r ∧
      (ContoursRel a b r ∨ (r = .touch ∧ ContoursRel a b .cross ∧
        ∀ p ∈ a.pts ∩ b.pts, p ∈ a.vertices ∨ p ∈ b.vertices)) := by
  obtain ⟨r, hr, h, -⟩ := contours_answer hc ha hb
  exact ⟨r, hr, h⟩

/-- C36: what is answered `CROSS` and `TOUCH`, exactly. -/
theorem C36_cross_touch {context : Context K} (hc : context.Exact) {a b : Contour K}
    (ha : a.Simple) (hb : b.Simple) :
    (planar.contourInContour a b context = .ok .cross ↔ ¬ SharesPiece a.pts b.pts ∧
      ∃ p ∈ a.pts ∩ b.pts, p ∉ a.vertices ∧ p ∉ b.vertices) ∧
    (planar.contourInContour a b context = .ok .touch ↔ ¬ SharesPiece a.pts b.pts ∧
      (a.pts ∩ b.pts).Nonempty ∧ ∀ p ∈ a.pts ∩ b.pts, p ∈ a.vertices ∨ p ∈ b.vertices) := by
  obtain ⟨r, hr, h, hx⟩ := contours_answer hc ha hb
  simp only [hr, Except.ok.injEq]
  refine ⟨hx, ?_⟩
  constructor
  · rintro rfl
    have h1 : ¬ SharesPiece a.pts b.pts := by rcases h with h | h; exacts [h.1, h.2.1.1]
    refine ⟨h1, ?_, fun p hp => ?_⟩
    · rcases h with h | h
      · exact h.2.1
      · rw [Set.nonempty_iff_ne_empty]
        exact fun hd => Contour.not_both_of_disjoint hd h.2.1.2.1 h.2.1.2.2
    · by_contra hn
      push Not at hn
      exact absurd (hx.mpr ⟨h1, p, hp, hn⟩) (by decide)
  · rintro ⟨h1, h2, h3⟩
    rcases h with h | h
    · cases r with
      | touch => rfl
      | equal => exact absurd ((h : a.pts = b.pts) ▸ ha.sharesPiece) h1
      | overlap => exact absurd h.2 h1
      | cross =>
        obtain ⟨-, p, hp, h4, h5⟩ := hx.mp rfl
        rcases h3 p hp with h | h
        · exact absurd h h4
        · exact absurd h h5
      | disjoint => exact absurd h (Set.nonempty_iff_ne_empty.mp h2)
      | _ => exact h.elim
    · exact h.1

/-- C36: the relations of simple contours exclude each other and do not depend on their order. -/
theorem C36_relations {a b : Contour K} (ha : a.Simple) (hb : b.Simple) :
    (∀ r r', ContoursRel a b r → ContoursRel a b r' → r = r') ∧
    ∀ r, ContoursRel a b r → ContoursRel b a r :=
  ⟨fun _ _ => ContoursRel.unique ha, fun _ => ContoursRel.symm ha hb⟩

/-- C36: the answer is the relation of the curves if these have a common point which is a vertex of
none of them, or do not cross. -/
theorem C36_contour_in_contour_iff {context : Context K} (hc : context.Exact) {a b : Contour K}
    (ha : a.Simple) (hb : b.Simple) (h : (∃ p ∈ a.pts ∩ b.pts, p ∉ a.vertices ∧ p ∉ b.vertices) ∨
      ¬ ContoursRel a b .cross) (r : Relation) :
    planar.contourInContour a b context = .ok r ↔ ContoursRel a b r := by
  obtain ⟨r', hr, h'⟩ := C36_contour_in_contour_partial hc ha hb
  have h' : ContoursRel a b r' := by
    rcases h' with h' | ⟨-, h1, h2⟩
    · exact h'
    · rcases h with ⟨p, hp, h3, h4⟩ | h
      · rcases h2 p hp with h | h
        · exact absurd h h3
        · exact absurd h h4
      · exact absurd h1 h
  rw [hr]
  constructor
  · intro e; cases e; exact h'
  · intro h; rw [h'.unique ha h]

/-- C36: every answer other than `TOUCH` is right. -/
theorem C36_contour_in_contour_sound {context : Context K} (hc : context.Exact) {a b : Contour K}
    (ha : a.Simple) (hb : b.Simple) {r : Relation} (hr : r ≠ .touch)
    (h : planar.contourInContour a b context = .ok r) : ContoursRel a b r := by
  obtain ⟨r', hr', h'⟩ := C36_contour_in_contour_partial hc ha hb
  rw [h] at hr'
  cases hr'
  rcases h' with h' | ⟨h', -⟩
  · exact h'
  · exact absurd h' hr

/-- A square with additional vertices. -/
def exampleSquare : Contour ℚ :=
  ⟨[⟨0, 0⟩, ⟨1, 0⟩, ⟨3, 0⟩, ⟨4, 0⟩, ⟨4, 1⟩, ⟨4, 3⟩, ⟨4, 4⟩, ⟨3, 4⟩, ⟨1, 4⟩, ⟨0, 4⟩, ⟨0, 3⟩, ⟨0, 1⟩]⟩

/-- A square with diagonals along the axes. -/
def exampleDiamond : Contour ℚ := ⟨[⟨2, -1⟩, ⟨5, 2⟩, ⟨2, 5⟩, ⟨-1, 2⟩]⟩

theorem exampleDiamond_simple : exampleDiamond.Simple := Contour.simple_of_check (by decide +kernel)

/-- The squares cross. -/
theorem C36_example :
    ContoursRel (⟨[⟨0, 0⟩, ⟨4, 0⟩, ⟨4, 4⟩, ⟨0, 4⟩]⟩ : Contour ℚ) exampleDiamond .cross :=
  (C36_contour_in_contour_iff reference.context_exact (Contour.simple_of_check (by decide +kernel))
    exampleDiamond_simple (.inl ⟨⟨1, 0⟩, ⟨⟨⟨⟨0, 0⟩, ⟨4, 0⟩⟩, by decide +kernel, by
      rw [Segment.mem_pts_iff]; constructor <;> decide +kernel⟩,
      ⟨⟨⟨-1, 2⟩, ⟨2, -1⟩⟩, by decide +kernel, by
        rw [Segment.mem_pts_iff]; constructor <;> decide +kernel⟩⟩,
      by decide +kernel, by decide +kernel⟩) _).mp (by decide +kernel)

/-- C36: the exception is real, the same squares are answered `TOUCH` if the points at which they cross
are vertices. -/
theorem C36_counterexample :
    exampleSquare.Simple ∧ exampleDiamond.Simple ∧
      planar.contourInContour exampleSquare exampleDiamond (reference.context : Context ℚ)
        = .ok .touch ∧ ContoursRel exampleSquare exampleDiamond .cross := by
  have hs : exampleSquare.Simple := Contour.simple_of_check (by decide +kernel)
  refine ⟨hs, exampleDiamond_simple, by decide +kernel, ?_⟩
  obtain ⟨r, hr, h⟩ := C36_contour_in_contour_partial reference.context_exact hs exampleDiamond_simple
  have e : r = .touch := by
    have : planar.contourInContour exampleSquare exampleDiamond (reference.context : Context ℚ)
      = .ok .touch := by decide +kernel
    rw [this] at hr
    cases hr
    rfl
  subst e
  have i1 : (exampleSquare.pts ∩ exampleDiamond.interior).Nonempty :=
    ⟨⟨2, 0⟩, ⟨⟨⟨1, 0⟩, ⟨3, 0⟩⟩, by decide +kernel, by
      rw [Segment.mem_pts_iff]; constructor <;> decide +kernel⟩,
      (C10_point_in_region_unique reference.context_exact ⟨2, 0⟩ exampleDiamond .interior).mp
        (by decide +kernel)⟩
  have i2 : (exampleSquare.pts ∩ exampleDiamond.exterior).Nonempty :=
    ⟨⟨0, 0⟩, Contour.vertex_mem_pts (by decide +kernel),
      (C10_point_in_region_unique reference.context_exact ⟨0, 0⟩ exampleDiamond .exterior).mp
        (by decide +kernel)⟩
  rcases h with h | h
  · exact absurd ⟨i1, i2⟩ h.2.2
  · exact h.2.1

end Orient.Props
