import Verif.Lemmas.Sweep.Column
import Mathlib.Order.Interval.Set.Infinite

/-! What the emitted events tell when the operands bound areas. -/

set_option linter.unusedSectionVars false

namespace Orient

variable {K : Type} [Field K] [LinearOrder K] [IsStrictOrderedRing K]

open Segment State eventsQueue

/-! ### small steps -/

theorem avoid_step {p a : Point K} (hne : p ≠ a) {l : List (Segment K)} (hp : p ∉ segsPts l) :
    ∃ e, 0 < e ∧ ∀ u, 0 ≤ u → u ≤ e → lerp p a u ∉ segsPts l := by
  induction l with
  | nil => exact ⟨1, one_pos, fun u _ _ ⟨t, ht, _⟩ => by cases ht⟩
  | cons t l ih =>
    have hpl : p ∉ segsPts l := fun ⟨w, hw, hm⟩ => hp ⟨w, List.mem_cons_of_mem _ hw, hm⟩
    have hpt : p ∉ t.pts := fun hm => hp ⟨t, by simp, hm⟩
    obtain ⟨e, he, h⟩ := ih hpl
    rcases germ_dichotomy hne t with ⟨e', he', h'⟩ | ⟨e', he', h'⟩
    · refine ⟨min e e', lt_min he he', fun u u0 u1 ⟨w, hw, hm⟩ => ?_⟩
      rcases List.mem_cons.mp hw with rfl | hw
      · rcases u0.eq_or_lt with rfl | u0
        · rw [lerp_zero] at hm; exact hpt hm
        · exact h' u u0 (u1.trans (min_le_right _ _)) hm
      · exact h u u0 (u1.trans (min_le_left _ _)) ⟨w, hw, hm⟩
    · have := h' 0 le_rfl he'.le
      rw [lerp_zero] at this
      exact absurd this hpt

theorem lerp_time (ε : K) (p a : Point K) (u : K) :
    (lerp p a u).time ε = p.time ε + u * (a.time ε - p.time ε) := by
  unfold lerp Point.time; ring

/-- Steps to times at which nothing happens are arbitrarily small. -/
theorem exists_generic_step {ε : K} (P : Finset (Point K)) {p a : Point K}
    (hne : p.time ε ≠ a.time ε) {e : K} (he : 0 < e) :
    ∃ u, 0 < u ∧ u ≤ e ∧ Generic ε P ((lerp p a u).time ε) := by
  classical
  obtain ⟨u, ⟨h1, h2⟩, h3⟩ := (Set.Ioc_infinite he).exists_notMem_finset
    (P.image fun q => (q.time ε - p.time ε) / (a.time ε - p.time ε))
  refine ⟨u, h1, h2, fun q hq e => h3 ?_⟩
  rw [lerp_time] at e
  have : a.time ε - p.time ε ≠ 0 := sub_ne_zero.mpr hne.symm
  exact Finset.mem_image.mpr ⟨q, hq, by rw [e]; field_simp; ring⟩

theorem lerp_sub {p a : Point K} {u e : K} (h0 : 0 ≤ u) (h1 : u ≤ e) {z : Point K}
    (hz : z ∈ (⟨p, lerp p a u⟩ : Segment K).pts) : ∃ w, 0 ≤ w ∧ w ≤ e ∧ z = lerp p a w := by
  obtain ⟨r, r0, r1, rfl⟩ := hz
  refine ⟨r * u, mul_nonneg r0 h0, (mul_le_of_le_one_left h0 r1).trans h1, ?_⟩
  unfold lerp
  refine Point.ext ?_ ?_ <;> · simp only; ring

/-- Small steps which stay in the interior or in the exterior. -/
theorem Area.step {ε : K} {P : Finset (Point K)} {m : List (Segment K × Bool)} {I E : Set (Point K)}
    (A : Area ε P m I E) {p a : Point K} (hne : p ≠ a) (hp : p ∉ segsPts (m.map Prod.fst)) :
    ∃ e, 0 < e ∧ ∀ u, 0 ≤ u → u ≤ e → lerp p a u ∉ segsPts (m.map Prod.fst) ∧
      (lerp p a u ∈ I ↔ p ∈ I) ∧ (lerp p a u ∈ E ↔ p ∈ E) := by
  obtain ⟨e, he, h⟩ := avoid_step hne hp
  refine ⟨e, he, fun u u0 u1 => ?_⟩
  have hm := h u u0 u1
  have key : lerp p a u ∈ I ↔ p ∈ I := by
    refine (A.const _ _ fun z hz => ?_).symm
    obtain ⟨w, w0, w1, rfl⟩ := lerp_sub u0 u1 hz
    exact h w w0 w1
  refine ⟨hm, key, ?_⟩
  rw [A.mem_exterior hm, A.mem_exterior hp, key]

section

variable {ε : K} {P : Finset (Point K)} {s : State K} {t : K} {b : Bool} {I E : Set (Point K)}

theorem exists_time_bound (ε : K) (Q : Finset (Point K)) : ∃ M : K, ∀ q ∈ Q, q.time ε < M := by
  classical
  induction Q using Finset.induction_on with
  | empty => exact ⟨0, by simp⟩
  | insert a Q _ ih =>
    obtain ⟨M, hM⟩ := ih
    refine ⟨max M (a.time ε + 1), fun q hq => ?_⟩
    rcases Finset.mem_insert.mp hq with rfl | hq
    · exact (lt_add_one _).trans_le (le_max_right _ _)
    · exact (hM q hq).trans_le (le_max_left _ _)

/-- Nothing is inside beyond the last abscissa of an operand. -/
theorem Area.beyond (A : Area ε P (s.marks b) I E) (c : Clock ε P s) {p : Point K}
    (hp : ∀ z ∈ s.operand b, z.x < p.x) : p ∈ E := by
  have hop := s.segsPts_marks b
  have hn : ∀ q : Point K, p.x ≤ q.x → q ∉ segsPts ((s.marks b).map Prod.fst) := by
    intro q hq hm
    rw [hop] at hm
    exact absurd (hp q hm) (not_lt.mpr hq)
  obtain ⟨M, hM⟩ := exists_time_bound ε P
  set q : Point K := ⟨max p.x (M - ε * p.y), p.y⟩ with hq
  have hqx : p.x ≤ q.x := le_max_left _ _
  have hqt : M ≤ q.time ε := by
    have : M - ε * p.y ≤ q.x := le_max_right _ _
    unfold Point.time
    change M ≤ q.x + ε * p.y
    linarith
  have hgen : Generic ε P (q.time ε) := fun r hr e => absurd (hM r hr) (not_lt.mpr (hqt.trans_eq e.symm))
  have hseg := A.const p q fun z hz => by
    refine hn z ?_
    obtain ⟨r, r0, r1, rfl⟩ := hz
    simp only [lerp]
    nlinarith [mul_nonneg r0 (sub_nonneg.mpr hqx)]
  have hpar := A.parity q (hn q hqx) hgen
  rw [State.marks_fst, ← below_card] at hpar
  have hempty : below ε s b (q.time ε) q.y = ∅ := by
    rw [Finset.eq_empty_iff_forall_notMem]
    intro i hi
    obtain ⟨h1, h2, -⟩ := mem_below.mp hi
    have := hM _ (c.points.finish i h1)
    exact absurd (h2.2.2.trans this) (not_lt.mpr hqt)
  rw [hempty] at hpar
  rw [A.mem_exterior (hn p le_rfl), hseg, hpar]
  simp

/-- Where the event is described it is inside, outside or on the other operand. -/
theorem eventsQueue.Describes.located {i : Nat} {em : Emitted K} (D : Describes ε P s b t i em) (c : Clock ε P s)
    (A : Area ε P (s.marks (!b)) I E) (ht : Generic ε P t) :
    (em.inside = true ↔ (s.seg i).pointAt ε t ∈ I) ∧
    (em.outside = true ↔ (s.seg i).pointAt ε t ∈ E) ∧
    (em.overlapKind ≠ .none ↔ (s.seg i).pointAt ε t ∈ s.operand (!b)) := by
  have hcol : (s.seg i).pointAt ε t = col ε t ((s.seg i).height ε t) := rfl
  have hkind : em.overlapKind ≠ .none ↔ (s.seg i).pointAt ε t ∈ s.operand (!b) := by
    rw [hcol, col_mem_operand c ht, ne_eq, D.apart]
    push Not
    rfl
  by_cases hk : em.overlapKind = .none
  · have hn : (s.seg i).pointAt ε t ∉ s.operand (!b) := fun h => hkind.mpr h hk
    have hu : under ε s b t ((s.seg i).height ε t) = below ε s (!b) t ((s.seg i).height ε t) := by
      cases b with
      | true => exact under_true _ _
      | false => rw [under_false]; exact upto_eq_below (D.apart.mp hk)
    have ho := D.other A.bounds
    rw [hu] at ho
    obtain ⟨h1, h2⟩ := A.at_col ht (hcol ▸ hn)
    refine ⟨?_, ?_, hkind⟩
    · rw [hcol, h1, ← ho]; simp [Emitted.inside, hk]
    · rw [hcol, h2, ← Nat.not_odd_iff_even, ← ho]; simp [Emitted.outside, hk]
  · have hm := hkind.mp hk
    rw [← s.segsPts_marks] at hm
    refine ⟨⟨fun h => ?_, fun h => absurd hm (A.interior _ h)⟩,
      ⟨fun h => ?_, fun h => absurd hm (A.exterior _ h)⟩, hkind⟩
    · simp [Emitted.inside, hk] at h
    · simp [Emitted.outside, hk] at h

end

theorem Segment.lerp_pointAt (u : Segment K) (ε t₁ t₂ r : K) :
    lerp (u.pointAt ε t₁) (u.pointAt ε t₂) r = u.pointAt ε (t₁ + r * (t₂ - t₁)) := by
  have e : u.height ε (t₁ + r * (t₂ - t₁)) = u.height ε t₁ + r * (u.height ε t₂ - u.height ε t₁) := by
    rw [height_eq u (t₁ + r * (t₂ - t₁)) t₁, height_eq u t₂ t₁]; ring
  unfold lerp pointAt
  refine Point.ext ?_ ?_ <;> simp only <;> rw [e]
  ring

/-! ### a sweep which has come to its end -/

/-- A sweep over the segments of two operands up to the lesser of the greatest abscissas. -/
structure Scene (context : Context K) (ε : K) (P : Finset (Point K)) (s f : State K) (m : Bool → K)
    (stopX : K) : Prop where
  exact : context.Exact
  fresh : s.Fresh
  clock : Clock ε P s
  clash : ¬ Clash s
  max : ∀ b, ∀ x ∈ s.operand b, x.x ≤ m b
  stop : stopX = min (m false) (m true)
  ends : (sweep false context stopX s).2 = .ok f

section

variable {context : Context K} {ε : K} {P : Finset (Point K)} {s f : State K} {m : Bool → K}
  {stopX : K} (S : Scene context ε P s f m stopX) {b : Bool}

include S

theorem Scene.judged : Judged ε P s f stopX (sweep false context stopX s).1 :=
  sweep_judged S.exact _ S.fresh S.clock S.clash S.ends

theorem Scene.swept : Swept s stopX (sweep false context stopX s).1 f :=
  sweep_swept false S.exact _ S.fresh S.ends

theorem Scene.stop' (b : Bool) : stopX = min (m b) (m !b) := by
  cases b
  · exact S.stop
  · rw [S.stop, min_comm]; rfl

/-- An operand is next in the queue iff it has points beyond the last abscissa. -/
theorem Scene.next_iff : Props.NextFrom context f b ↔ ∃ z ∈ s.operand b, stopX < z.x := by
  have hw := S.swept.wf
  constructor
  · intro h
    unfold Props.NextFrom processing.peekFromTest at h
    cases hp : peek? context f with
    | none => rw [hp] at h; cases h
    | some e =>
      rw [hp, Option.map_some, Option.some.injEq] at h
      have hq := peek?_mem hp
      refine ⟨f.evStart e, ?_, S.swept.beyond e hq⟩
      have := evStart_mem_operand hw (queued_valid hw hq)
      obtain ⟨o, ho⟩ := S.swept.runs.refines S.fresh.wf
      rw [h, ho.operand] at this
      exact this
  · rintro ⟨z, hz, hx⟩
    obtain ⟨e, he, hb⟩ := sweep_queued false S.exact stopX S.fresh S.ends hz hx
    have := S.swept.next (context := context) S.fresh.wf (S.max false) (S.max true) S.stop he
    rwa [hb] at this

/-- Points of an operand beyond the last abscissa are beyond the other operand. -/
theorem Scene.past {z : Point K} (hz : z ∈ s.operand b) (hx : stopX < z.x) :
    ∀ w ∈ s.operand (!b), w.x < z.x := by
  intro w hw
  rw [S.stop' b, min_lt_iff] at hx
  rcases hx with hx | hx
  · exact absurd (S.max b z hz) (not_le.mpr hx)
  · exact (S.max _ w hw).trans_lt hx

/-- A common point is reported. -/
theorem Scene.disjoint_iff : (∀ em ∈ (sweep false context stopX s).1, em.relation = .disjoint) ↔
    s.operand true ∩ s.operand false = ∅ := by
  constructor
  · intro h
    rw [Set.eq_empty_iff_forall_notMem]
    rintro x ⟨h1, h2⟩
    obtain ⟨em, hem, hne⟩ := (sweep_complete false S.exact stopX S.fresh S.clash S.ends).common x h1 h2
      (by rw [S.stop]; exact le_min (S.max _ _ h2) (S.max _ _ h1))
    exact hne (h em hem)
  · intro h em hem
    by_contra hne
    have := (S.swept.sound em hem).2.2.1 hne
    rw [h] at this
    exact Set.not_nonempty_empty this

/-- Next to a point which is not on the other operand there is a described one. -/
theorem Scene.describes {I E : Set (Point K)} (A : Area ε P (s.marks (!b)) I E) {z : Point K}
    (hz : z ∈ s.operand b) (hn : z ∉ s.operand (!b)) (hx : z.x ≤ stopX) :
    ∃ em ∈ (sweep false context stopX s).1, ∃ i < s.nextLeft, ∃ t, Generic ε P t ∧
      ActiveAt ε s b t i ∧ Describes ε P s b t i em ∧ ((s.seg i).pointAt ε t ∈ I ↔ z ∈ I) ∧
      ((s.seg i).pointAt ε t ∈ E ↔ z ∈ E) := by
  have c := S.clock
  obtain ⟨i, hi, rfl, hm⟩ := hz
  obtain ⟨em, hem, a, b', h1, h2, h3, h4, h5⟩ := S.judged.complete c hi hm hx
  have ez : z = (s.seg i).pointAt ε (z.time ε) :=
    Point.ext_time (pointAt_time _ _).symm (c.height hi hm)
  obtain ⟨τ, hτ, hin⟩ : ∃ τ, τ ≠ z.time ε ∧ ∀ u, 0 < u → u < 1 →
      a < z.time ε + u * (τ - z.time ε) ∧ z.time ε + u * (τ - z.time ε) < b' := by
    rcases h4 with h4 | h4
    · refine ⟨b', fun e => h1.ne (h4.trans e.symm), fun u u0 u1 => ?_⟩
      have : 0 < b' - z.time ε := by rw [← h4]; linarith
      constructor <;> nlinarith
    · refine ⟨a, fun e => h1.ne (e.trans h4.symm), fun u u0 u1 => ?_⟩
      have : 0 < z.time ε - a := by rw [← h4]; linarith
      constructor <;> nlinarith
  have hne : z ≠ (s.seg i).pointAt ε τ := by
    intro e
    have := congrArg (fun p => p.time ε) e
    simp only [pointAt_time] at this
    exact hτ this.symm
  rw [← s.segsPts_marks] at hn
  obtain ⟨e, he, hstep⟩ := A.step hne hn
  obtain ⟨u, u0, u1⟩ := exists_between (lt_min he one_pos)
  obtain ⟨k1, k2⟩ := hin u u0 (u1.trans_le (min_le_right _ _))
  obtain ⟨g, ai, D⟩ := h5 _ k1 k2
  obtain ⟨-, l1, l2⟩ := hstep u u0.le (u1.trans_le (min_le_left _ _)).le
  rw [ez, lerp_pointAt, ← ez] at l1 l2
  exact ⟨em, hem, i, hi, _, g, ai, D, l1, l2⟩

/-- Points of an operand in the interior of the other one are reported. -/
theorem Scene.inside_iff {I E : Set (Point K)} (A : Area ε P (s.marks (!b)) I E) :
    (∃ em ∈ (sweep false context stopX s).1, em.fromTest = b ∧ em.inside = true) ↔
      (s.operand b ∩ I).Nonempty := by
  have c := S.clock
  constructor
  · rintro ⟨em, hem, hb, hin⟩
    obtain ⟨i, hi, t, ht, ai, D⟩ := S.judged.sound c hem
    rw [hb] at ai D
    exact ⟨_, ⟨i, hi, ai.1, pointAt_mem (c.times hi) ai.2.1.le ai.2.2.le⟩,
      (D.located c A ht).1.mp hin⟩
  · rintro ⟨z, hz, hzI⟩
    have hx : z.x ≤ stopX := by
      by_contra hn
      exact A.apart z hzI (A.beyond c (S.past hz (not_le.mp hn)))
    obtain ⟨em, hem, i, hi, t, ht, ai, D, h1, h2⟩ := S.describes A hz
      (s.segsPts_marks _ ▸ A.interior z hzI) hx
    exact ⟨em, hem, D.fromTest, (D.located c A ht).1.mpr (h1.mpr hzI)⟩

/-- Points of an operand in the exterior of the other one are reported. -/
theorem Scene.outside_iff {I E : Set (Point K)} (A : Area ε P (s.marks (!b)) I E) :
    ((∃ em ∈ (sweep false context stopX s).1, em.fromTest = b ∧ em.outside = true) ∨
      Props.NextFrom context f b) ↔ (s.operand b ∩ E).Nonempty := by
  have c := S.clock
  constructor
  · rintro (⟨em, hem, hb, hin⟩ | h)
    · obtain ⟨i, hi, t, ht, ai, D⟩ := S.judged.sound c hem
      rw [hb] at ai D
      exact ⟨_, ⟨i, hi, ai.1, pointAt_mem (c.times hi) ai.2.1.le ai.2.2.le⟩,
        (D.located c A ht).2.1.mp hin⟩
    · obtain ⟨z, hz, hx⟩ := S.next_iff.mp h
      exact ⟨z, hz, A.beyond c (S.past hz hx)⟩
  · rintro ⟨z, hz, hzE⟩
    by_cases hx : z.x ≤ stopX
    · obtain ⟨em, hem, i, hi, t, ht, ai, D, h1, h2⟩ := S.describes A hz
        (s.segsPts_marks _ ▸ A.exterior z hzE) hx
      exact .inl ⟨em, hem, D.fromTest, (D.located c A ht).2.1.mpr (h2.mpr hzE)⟩
    · exact .inr (S.next_iff.mpr ⟨z, hz, not_le.mp hx⟩)

/-- Whether an operand is a part of the other one. -/
theorem Scene.subset_iff :
    ((∀ em ∈ (sweep false context stopX s).1, em.fromTest = b → em.relation = .overlap) ∧
      ¬ Props.NextFrom context f b) ↔ s.operand b ⊆ s.operand (!b) := by
  constructor
  · rintro ⟨h1, h2⟩
    exact S.swept.subset S.fresh.wf (S.max false) (S.max true) S.stop h1 h2
  · intro h
    refine ⟨(sweep_complete false S.exact stopX S.fresh S.clash S.ends).subset b h, fun hn => ?_⟩
    obtain ⟨z, hz, hx⟩ := S.next_iff.mp hn
    exact lt_irrefl _ (S.past hz hx z (h hz))

end

end Orient
