import Verif.Lemmas.Sweep.Sides

/-! What the emitted events of the compound queue tell of the registered segments. -/

set_option linter.unusedSectionVars false

namespace Orient.eventsQueue

variable {K : Type} [Field K] [LinearOrder K] [IsStrictOrderedRing K]

open Segment State

theorem seg_x_mono {ε : K} {u : Segment K} (h : u.start < u.finish)
    (ht : u.start.time ε < u.finish.time ε) {z w : Point K} (hz : z ∈ u.pts) (hw : w ∈ u.pts)
    (hle : z.time ε ≤ w.time ε) : z.x ≤ w.x := by
  obtain ⟨a, -, -, rfl⟩ := hz
  obtain ⟨b, -, -, rfl⟩ := hw
  have e : ∀ r, (lerp u.start u.finish r).time ε
      = u.start.time ε + r * (u.finish.time ε - u.start.time ε) := by
    intro r; unfold lerp Point.time; ring
  rw [e, e] at hle
  have hx : u.start.x ≤ u.finish.x := x_le_of_le h.le
  have hab : a ≤ b := by
    by_contra hn
    have := not_le.mp hn
    nlinarith
  simp only [lerp]
  nlinarith

/-- The emitted event describes the segment `i` of the operand `b` at the time `t`. -/
structure Describes (ε : K) (P : Finset (Point K)) (s : State K) (b : Bool) (t : K) (i : Nat)
    (em : Emitted K) : Prop where
  fromTest : em.fromTest = b
  interiorToLeft : em.interiorToLeft = (s.lefts i).interiorToLeft
  other : Bounds ε P s (!b) → (em.otherInteriorToLeft = true ↔
    Odd (under ε s b t ((s.seg i).height ε t)).card)
  apart : em.overlapKind = .none ↔
    ∀ j < s.nextLeft, ActiveAt ε s (!b) t j → (s.seg j).height ε t ≠ (s.seg i).height ε t
  kind : ∀ j < s.nextLeft, ActiveAt ε s (!b) t j → (s.seg j).height ε t = (s.seg i).height ε t →
    em.overlapKind = kindOf s i j

section

variable {ε : K} {P : Finset (Point K)} {s f : State K} {o : Nat → Nat} {stopX : K}
  {ems : List (Emitted K)}

/-- Pieces which coincide at a time are on one line. -/
theorem coincide (c : Clock ε P f) {t : K} (ht : Generic ε P t) {b b' : Bool} {i j : Nat}
    (hi : i < f.nextLeft) (hj : j < f.nextLeft) (ai : ActiveAt ε f b t i) (aj : ActiveAt ε f b' t j)
    (h : (f.seg i).height ε t = (f.seg j).height ε t) : Same ε (f.seg i) (f.seg j) := by
  by_contra hn
  obtain ⟨x, hx, e, -⟩ := c.common hi hj hn ai.2.1.le ai.2.2.le aj.2.1.le aj.2.2.le h
  exact ht x hx e

/-- Pieces which coincide at a time up to the abscissa start together. -/
theorem Judged.twin (J : Judged ε P s f stopX ems) {t : K} (ht : Generic ε P t) {b b' : Bool}
    {i j : Nat} (hi : i < f.nextLeft) (hj : j < f.nextLeft) (ai : ActiveAt ε f b t i)
    (aj : ActiveAt ε f b' t j) (h : (f.seg i).height ε t = (f.seg j).height ε t)
    (xi : (f.lefts i).start.x ≤ stopX) (xj : (f.lefts j).start.x ≤ stopX) :
    Twins ε f i j := by
  have hs := coincide J.clock ht hi hj ai aj h
  have c := J.clock
  refine ⟨hs, J.resolved.same i hi j hj hs xi xj ?_ ?_⟩
  · rw [← c.lt_iff (c.points.start i hi) (c.points.finish j hj)]; exact ai.2.1.trans aj.2.2
  · rw [← c.lt_iff (c.points.start j hj) (c.points.finish i hi)]; exact aj.2.1.trans ai.2.2

/-- An event describes the piece it has been emitted for immediately after the start of the piece. -/
theorem Judged.describes_gap (J : Judged ε P s f stopX ems) (c₀ : Clock ε P s)
    (hr : Refines s f o) {k : Nat} (hk : k < f.nextLeft) (hx : (f.lefts k).start.x ≤ stopX)
    {em : Emitted K} (hem : Shows f k em) {t : K} (ht : Gap ε P ((f.lefts k).start.time ε) t) :
    ActiveAt ε s (f.lefts k).fromTest t (o k) ∧ Describes ε P s (f.lefts k).fromTest t (o k) em := by
  have c := J.clock
  have hg := ht.generic
  have ak : ActiveAt ε f (f.lefts k).fromTest t k :=
    ⟨rfl, ht.1, ht.2 _ (c.points.finish k hk) (c.times hk)⟩
  have hq := J.handled k hk hx
  have sk := same_original c₀ c hr hk
  have twin : ∀ j < s.nextLeft, ActiveAt ε s (!(f.lefts k).fromTest) t j →
      (s.seg j).height ε t = (s.seg (o k)).height ε t → ∃ j' < f.nextLeft, o j' = j ∧
        Ev.left j' ∉ f.queue ∧ (f.lefts k).fromTest ≠ (f.lefts j').fromTest ∧ Twins ε f k j' := by
    intro j hj aj e
    obtain ⟨j', hj', rfl, aj'⟩ := piece_at c₀ c hr hg hj aj
    have sj := same_original c₀ c hr hj'
    have h1 : (f.lefts j').start ≤ (f.lefts k).start := by
      rw [← c.le_iff (c.points.start j' hj') (c.points.start k hk)]
      exact ht.le (c.points.start j' hj') aj'.2.1.le
    have h2 := (x_le_of_le h1).trans hx
    refine ⟨j', hj', rfl, J.handled j' hj' h2, ?_, J.twin hg hk hj' ak aj' ?_ hx h2⟩
    · rw [aj'.1]; cases (f.lefts k).fromTest <;> simp
    · rw [← sk.at, ← sj.at, e]
  refine ⟨original_active c₀ hr hk ak, hem.fromTest,
    hem.interiorToLeft.trans (hr.interiorToLeft k hk), fun hB => ?_, ⟨fun h j hj aj e => ?_,
    fun h => ?_⟩, fun j hj aj e => ?_⟩
  · have := J.sided (f.lefts k).fromTest hB k hk hq rfl (fun _ q hqq ht => by
      refine J.handled q (c.wf.queueLeft q hqq) ?_ hqq
      rw [← ht.2]; exact hx) t ht
    rw [hem.other, this, sk.at]
  · obtain ⟨j', hj', -, hq', hne, tw⟩ := twin j hj aj e
    rw [hem.kind, J.kinds.kind k hk j' hj' hq hq' hne tw] at h
    exact kindOf_ne_none _ _ _ h
  · by_contra hne
    rw [hem.kind] at hne
    obtain ⟨j, hj, -, hne', tw⟩ := J.kinds.twin k hk hne
    have aj : ActiveAt ε f (!(f.lefts k).fromTest) t j := by
      refine ⟨?_, by rw [← tw.2]; exact ht.1, ?_⟩
      · revert hne'
        cases (f.lefts k).fromTest <;> cases (f.lefts j).fromTest <;> simp
      · refine ht.2 _ (c.points.finish j hj) ?_
        have := c.times hj
        change (f.lefts j).start.time ε < _ at this
        rw [← tw.2] at this
        exact this
    refine h (o j) (hr.lt j hj) (original_active c₀ hr hj aj) ?_
    rw [sk.at, (same_original c₀ c hr hj).at, tw.1.at]
  · obtain ⟨j', hj', rfl, hq', hne, tw⟩ := twin j hj aj e
    rw [hem.kind, J.kinds.kind k hk j' hj' hq hq' hne tw]
    unfold kindOf
    rw [hr.interiorToLeft k hk, hr.interiorToLeft j' hj']

/-- An event describes the piece it has been emitted for at all the times up to the abscissa. -/
theorem Judged.describes (J : Judged ε P s f stopX ems) (c₀ : Clock ε P s)
    (hr : Refines s f o) {k : Nat} (hk : k < f.nextLeft) {em : Emitted K} (hem : Shows f k em) {t : K}
    (ht : Generic ε P t) (ak : ActiveAt ε f (f.lefts k).fromTest t k)
    (hxt : ((f.seg k).pointAt ε t).x ≤ stopX) :
    Describes ε P s (f.lefts k).fromTest t (o k) em := by
  have c := J.clock
  have hw := c.wf
  have mem : ∀ τ, (f.lefts k).start.time ε ≤ τ → τ ≤ t → (f.seg k).pointAt ε τ ∈ (f.seg k).pts ∧
      ((f.seg k).pointAt ε τ).x ≤ stopX := by
    intro τ h1 h2
    have m := pointAt_mem (c.times hk) h1 (h2.trans ak.2.2.le)
    refine ⟨m, (seg_x_mono (hw.lt k hk) (c.times hk) m
      (pointAt_mem (c.times hk) ak.2.1.le ak.2.2.le) ?_).trans hxt⟩
    rw [pointAt_time, pointAt_time]; exact h2
  have hx : (f.lefts k).start.x ≤ stopX :=
    (x_le_of_le (c.start_le hk (mem t ak.2.1.le le_rfl).1)).trans hxt
  obtain ⟨τ, g⟩ := exists_gap ε P ((f.lefts k).start.time ε)
  have g : Gap ε P ((f.lefts k).start.time ε) τ := g
  rcases lt_or_ge τ t with hlt | hge
  swap
  · exact (J.describes_gap c₀ hr hk hx hem
      ⟨ak.2.1, fun q hq hq' => hge.trans_lt (g.2 q hq hq')⟩).2
  obtain ⟨-, D⟩ := J.describes_gap c₀ hr hk hx hem g
  have sk := same_original c₀ c hr hk
  have akτ : ActiveAt ε f (f.lefts k).fromTest τ k := ⟨rfl, g.1, hlt.trans ak.2.2⟩
  -- segments of the other operand coincide with the piece at both times or at none of them
  have later : ∀ j < s.nextLeft, ActiveAt ε s (!(f.lefts k).fromTest) τ j →
      (s.seg j).height ε τ = (s.seg (o k)).height ε τ →
      ActiveAt ε s (!(f.lefts k).fromTest) t j ∧
        (s.seg j).height ε t = (s.seg (o k)).height ε t := by
    intro j hj aj e
    obtain ⟨j', hj', rfl, aj'⟩ := piece_at c₀ c hr g.generic hj aj
    have sj := same_original c₀ c hr hj'
    have h1 : (f.lefts j').start ≤ (f.lefts k).start := by
      rw [← c.le_iff (c.points.start j' hj') (c.points.start k hk)]
      exact g.le (c.points.start j' hj') aj'.2.1.le
    have tw := J.twin g.generic hk hj' akτ aj' (by rw [← sk.at, ← sj.at, e]) hx
      ((x_le_of_le h1).trans hx)
    have hend : t < (f.leftEnd j').time ε := by
      by_contra hn
      have hn := not_lt.mp hn
      have hs : (f.lefts k).start.time ε ≤ (f.leftEnd j').time ε := by
        have := c.times hj'
        change (f.lefts j').start.time ε < _ at this
        rw [← tw.2] at this
        exact this.le
      obtain ⟨-, hx'⟩ := mem _ hs hn
      have e2 : (f.seg k).pointAt ε ((f.leftEnd j').time ε) = f.leftEnd j' := by
        refine Point.ext_time (ε := ε) (pointAt_time _ _) ?_
        have := height_finish (c.times hj')
        change (f.seg k).height ε _ = _
        rw [tw.1.at]; exact this
      rw [e2] at hx'
      have := J.resolved.ends j' hj' k hk tw.1.symm tw.2.symm hx'
      rw [← this] at hn
      exact absurd ak.2.2 (not_lt.mpr hn)
    have : ActiveAt ε f (!(f.lefts k).fromTest) t j' := ⟨aj'.1, aj'.2.1.trans hlt, hend⟩
    refine ⟨original_active c₀ hr hj' this, ?_⟩
    rw [sj.at, sk.at, tw.1.at]
  have earlier : ∀ j < s.nextLeft, ActiveAt ε s (!(f.lefts k).fromTest) t j →
      (s.seg j).height ε t = (s.seg (o k)).height ε t →
      ActiveAt ε s (!(f.lefts k).fromTest) τ j ∧
        (s.seg j).height ε τ = (s.seg (o k)).height ε τ := by
    intro j hj aj e
    obtain ⟨j', hj', rfl, aj'⟩ := piece_at c₀ c hr ht hj aj
    have sj := same_original c₀ c hr hj'
    have heq : (f.seg k).height ε t = (f.seg j').height ε t := by rw [← sk.at, ← sj.at, e]
    have hp : (f.seg j').pointAt ε t = (f.seg k).pointAt ε t := by unfold pointAt; rw [heq]
    have mj := pointAt_mem (c.times hj') aj'.2.1.le aj'.2.2.le
    rw [hp] at mj
    have tw := J.twin ht hk hj' ak aj' heq hx ((x_le_of_le (c.start_le hj' mj)).trans hxt)
    have : ActiveAt ε f (!(f.lefts k).fromTest) τ j' :=
      ⟨aj'.1, by rw [← tw.2]; exact g.1, hlt.trans aj'.2.2⟩
    refine ⟨original_active c₀ hr hj' this, ?_⟩
    rw [sj.at, sk.at, tw.1.at]
  refine ⟨D.fromTest, D.interiorToLeft, fun hB => ?_, ?_, fun j hj aj e => ?_⟩
  · rw [D.other hB]
    refine Bounds.persist_under c₀ hB (s.seg (o k)) hlt g.generic ht ?_
    intro j hj bj hn x h1 h2 h3 h4 e
    have m1 := (mem x (g.1.le.trans h1) h2)
    have m2 := pointAt_mem (c₀.times hj) h3 h4
    have e3 : (s.seg j).pointAt ε x = (f.seg k).pointAt ε x := by
      unfold pointAt; rw [← e, sk.at]
    rw [e3] at m2
    obtain ⟨j', hj', rfl, hm⟩ := hr.cover j hj _ m2
    have sj := same_original c₀ c hr hj'
    have hn' : ¬ Same ε (f.seg k) (f.seg j') := fun h => hn ((sk.trans h).trans sj.symm)
    obtain ⟨h5, -⟩ := J.resolved.past k hk j' hj' hn' _ m1.1 hm m1.2
    rcases h5 with h5 | h5
    · have := congrArg (fun p => p.time ε) h5
      simp only [pointAt_time] at this
      change x = (f.lefts k).start.time ε at this
      exact absurd (g.1.trans_le h1) (not_lt.mpr this.le)
    · have := congrArg (fun p => p.time ε) h5
      simp only [pointAt_time] at this
      change x = (f.leftEnd k).time ε at this
      exact absurd (h2.trans_lt ak.2.2) (not_lt.mpr this.ge)
  · rw [D.apart]
    constructor
    · intro h j hj aj e
      obtain ⟨h1, h2⟩ := earlier j hj aj e
      exact h j hj h1 h2
    · intro h j hj aj e
      obtain ⟨h1, h2⟩ := later j hj aj e
      exact h j hj h1 h2
  · obtain ⟨h1, h2⟩ := earlier j hj aj e
    exact D.kind j hj h1 h2

/-- Everything which has been emitted describes something. -/
theorem Judged.sound (J : Judged ε P s f stopX ems) (c₀ : Clock ε P s) {em : Emitted K}
    (hem : em ∈ ems) : ∃ i < s.nextLeft, ∃ t, Generic ε P t ∧ ActiveAt ε s em.fromTest t i ∧
      Describes ε P s em.fromTest t i em := by
  obtain ⟨o, hr⟩ := J.runs.refines c₀.wf
  obtain ⟨k, hk, hx, hs⟩ := J.shown em hem
  obtain ⟨t, g⟩ := exists_gap ε P ((f.lefts k).start.time ε)
  have g : Gap ε P ((f.lefts k).start.time ε) t := g
  obtain ⟨h1, h2⟩ := J.describes_gap c₀ hr hk hx hs g
  rw [← hs.fromTest] at h1 h2
  exact ⟨o k, hr.lt k hk, t, g.generic, h1, h2⟩

/-- Everything up to the abscissa is described: next to each point there is a piece all of whose
points are described. -/
theorem Judged.complete (J : Judged ε P s f stopX ems) (c₀ : Clock ε P s) {i : Nat}
    (hi : i < s.nextLeft) {z : Point K} (hz : z ∈ (s.seg i).pts) (hx : z.x ≤ stopX) :
    ∃ em ∈ ems, ∃ a b, a < b ∧ a ≤ z.time ε ∧ z.time ε ≤ b ∧ (a = z.time ε ∨ b = z.time ε) ∧
      ∀ t, a < t → t < b → Generic ε P t ∧ ActiveAt ε s (s.lefts i).fromTest t i ∧
        Describes ε P s (s.lefts i).fromTest t i em := by
  have c := J.clock
  obtain ⟨o, hr⟩ := J.runs.refines c₀.wf
  obtain ⟨k, hk, rfl, mk⟩ := hr.cover i hi z hz
  have hft := hr.fromTest k hk
  have hsk : (f.lefts k).start.x ≤ stopX := (x_le_of_le (c.start_le hk mk)).trans hx
  obtain ⟨em, hem, hs⟩ := J.shows k hk hsk
  obtain ⟨h1, h2, h3⟩ := (mem_pts_iff_height (c.times hk) z).mp mk
  refine ⟨em, hem, ?_⟩
  rcases h1.lt_or_eq with hlt | heq
  · obtain ⟨a, g1, g2, g3⟩ := exists_gap_before ε P hlt
    refine ⟨a, z.time ε, g2, g2.le, le_rfl, .inr rfl, fun t ht1 ht2 => ?_⟩
    have hg : Generic ε P t := by
      intro q hq e
      exact absurd (g3 q hq (e.trans_lt ht2)) (not_lt.mpr (ht1.le.trans_eq e.symm))
    have ak : ActiveAt ε f (f.lefts k).fromTest t k := ⟨rfl, g1.trans ht1, ht2.trans_le h2⟩
    have m := pointAt_mem (c.times hk) ak.2.1.le ak.2.2.le
    rw [← hft]
    refine ⟨hg, original_active c₀ hr hk ak, J.describes c₀ hr hk hs hg ak ?_⟩
    refine (seg_x_mono (c.wf.lt k hk) (c.times hk) m mk ?_).trans hx
    rw [pointAt_time]; exact ht2.le
  · obtain ⟨b, g⟩ := exists_gap ε P ((f.lefts k).start.time ε)
    have heq : (f.lefts k).start.time ε = z.time ε := heq
    refine ⟨z.time ε, b, heq ▸ g.1, le_rfl, (heq ▸ g.1).le, .inl rfl, fun t ht1 ht2 => ?_⟩
    have g' : Gap ε P ((f.lefts k).start.time ε) t :=
      ⟨heq ▸ ht1, fun q hq h => ht2.trans (g.2 q hq h)⟩
    obtain ⟨k1, k2⟩ := J.describes_gap c₀ hr hk hsk hs g'
    rw [← hft]
    exact ⟨g'.generic, k1, k2⟩

/-- At generic times. -/
theorem Judged.complete_at (J : Judged ε P s f stopX ems) (c₀ : Clock ε P s) {i : Nat}
    (hi : i < s.nextLeft) {t : K} (ht : Generic ε P t) {b : Bool} (ha : ActiveAt ε s b t i)
    (hx : ((s.seg i).pointAt ε t).x ≤ stopX) : ∃ em ∈ ems, Describes ε P s b t i em := by
  have c := J.clock
  obtain ⟨o, hr⟩ := J.runs.refines c₀.wf
  obtain ⟨k, hk, rfl, ak⟩ := piece_at c₀ c hr ht hi ha
  have sk := same_original c₀ c hr hk
  have e : (s.seg (o k)).pointAt ε t = (f.seg k).pointAt ε t := by unfold pointAt; rw [sk.at]
  rw [e] at hx
  have m := pointAt_mem (c.times hk) ak.2.1.le ak.2.2.le
  obtain ⟨em, hem, hs⟩ := J.shows k hk ((x_le_of_le (c.start_le hk m)).trans hx)
  refine ⟨em, hem, ?_⟩
  have hb := ak.1
  subst hb
  exact J.describes c₀ hr hk hs ht ak hx

end

end Orient.eventsQueue
