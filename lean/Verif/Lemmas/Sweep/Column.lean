import Verif.Lemmas.Sweep.Area

/-! The sweep line at a time at which nothing happens. -/

set_option linter.unusedSectionVars false

namespace Orient

variable {K : Type} [Field K] [LinearOrder K] [IsStrictOrderedRing K]

open Segment State eventsQueue

/-- The point of the sweep line at a height. -/
def col (ε t h : K) : Point K := ⟨t - ε * h, h⟩

theorem col_time (ε t h : K) : (col ε t h).time ε = t := by unfold col Point.time; ring

theorem col_self (ε : K) (p : Point K) : col ε (p.time ε) p.y = p :=
  Point.ext_time (col_time ..) rfl

theorem mem_col {ε t h h' : K} (hle : h ≤ h') {z : Point K}
    (hz : z ∈ (⟨col ε t h, col ε t h'⟩ : Segment K).pts) : z = col ε t z.y ∧ h ≤ z.y ∧ z.y ≤ h' := by
  obtain ⟨r, r0, r1, rfl⟩ := hz
  simp only [col, lerp]
  refine ⟨Point.ext (by simp only; ring) rfl, ?_, ?_⟩
  · nlinarith [mul_nonneg r0 (sub_nonneg.mpr hle)]
  · nlinarith [mul_nonneg (sub_nonneg.mpr r1) (sub_nonneg.mpr hle)]

section

variable {ε : K} {P : Finset (Point K)} {s : State K} {t h : K}

theorem col_mem_operand (c : Clock ε P s) (ht : Generic ε P t) {b : Bool} :
    col ε t h ∈ s.operand b ↔ ∃ i < s.nextLeft, ActiveAt ε s b t i ∧ (s.seg i).height ε t = h := by
  constructor
  · rintro ⟨i, hi, hb, hm⟩
    obtain ⟨h1, h2, h3⟩ := (mem_pts_iff_height (c.times hi) _).mp hm
    rw [col_time] at h1 h2 h3
    exact ⟨i, hi, ⟨hb, lt_of_le_of_ne h1 (ht _ (c.points.start i hi)),
      lt_of_le_of_ne h2 (ht _ (c.points.finish i hi)).symm⟩, h3.symm⟩
  · rintro ⟨i, hi, ha, rfl⟩
    exact ⟨i, hi, ha.1, pointAt_mem (c.times hi) ha.2.1.le ha.2.2.le⟩

theorem exists_active (c : Clock ε P s) {b : Bool} {z : Point K} (ht : Generic ε P (z.time ε))
    (hz : z ∈ s.operand b) :
    ∃ i < s.nextLeft, ActiveAt ε s b (z.time ε) i ∧ (s.seg i).height ε (z.time ε) = z.y := by
  rw [← col_self ε z] at hz
  exact (col_mem_operand c ht).mp hz

/-- At such a time segments of an operand are at different heights. -/
theorem active_inj (c : Clock ε P s) (hcl : ¬ Clash s) (ht : Generic ε P t) {b : Bool} {i j : Nat}
    (hi : i < s.nextLeft) (hj : j < s.nextLeft) (ai : ActiveAt ε s b t i) (aj : ActiveAt ε s b t j)
    (he : (s.seg i).height ε t = (s.seg j).height ε t) : i = j := by
  by_contra hne
  have hs := coincide c ht hi hj ai aj he
  have hlt : max ((s.lefts i).start.time ε) ((s.lefts j).start.time ε) < t := max_lt ai.2.1 aj.2.1
  obtain ⟨t', h1, h2⟩ := exists_between hlt
  have h3 := (le_max_left _ _).trans_lt h1
  have h4 := (le_max_right _ _).trans_lt h1
  have key : ∀ τ, (s.seg j).pointAt ε τ = (s.seg i).pointAt ε τ := by
    intro τ; unfold pointAt; rw [hs.at]
  refine hcl ⟨i, j, hi, hj, hne, aj.1.trans ai.1.symm, (s.seg i).pointAt ε t, ⟨?_, ?_⟩,
    (s.seg i).pointAt ε t', ⟨?_, ?_⟩, ?_⟩
  · exact pointAt_mem (c.times hi) ai.2.1.le ai.2.2.le
  · rw [← key]; exact pointAt_mem (c.times hj) aj.2.1.le aj.2.2.le
  · exact pointAt_mem (c.times hi) h3.le (h2.trans ai.2.2).le
  · rw [← key]; exact pointAt_mem (c.times hj) h4.le (h2.trans aj.2.2).le
  · intro e
    have := congrArg (fun p => p.time ε) e
    simp only [pointAt_time] at this
    exact h2.ne' this

theorem upto_eq_below {b : Bool}
    (hn : ∀ j < s.nextLeft, ActiveAt ε s b t j → (s.seg j).height ε t ≠ h) :
    upto ε s b t h = below ε s b t h := by
  ext j
  rw [mem_upto, mem_below]
  constructor
  · rintro ⟨h1, h2, h3⟩; exact ⟨h1, h2, lt_of_le_of_ne h3 (hn j h1 h2)⟩
  · rintro ⟨h1, h2, h3⟩; exact ⟨h1, h2, h3.le⟩

theorem upto_card (c : Clock ε P s) (hcl : ¬ Clash s) (ht : Generic ε P t) {b : Bool} {i : Nat}
    (hi : i < s.nextLeft) (ai : ActiveAt ε s b t i) :
    (upto ε s b t ((s.seg i).height ε t)).card = (below ε s b t ((s.seg i).height ε t)).card + 1 := by
  have hni : i ∉ below ε s b t ((s.seg i).height ε t) := fun h => lt_irrefl _ (mem_below.mp h).2.2
  rw [← Finset.card_insert_of_notMem hni]
  congr 1
  ext j
  rw [Finset.mem_insert, mem_upto, mem_below]
  constructor
  · rintro ⟨h1, h2, h3⟩
    rcases h3.lt_or_eq with h3 | h3
    · exact .inr ⟨h1, h2, h3⟩
    · exact .inl (active_inj c hcl ht h1 hi h2 ai h3)
  · rintro (rfl | ⟨h1, h2, h3⟩)
    · exact ⟨hi, ai, le_rfl⟩
    · exact ⟨h1, h2, h3.le⟩

/-- A distance from a height to all the other heights. -/
theorem exists_near (ε : K) (s : State K) (t h : K) : ∃ δ, 0 < δ ∧ ∀ i < s.nextLeft,
    (s.seg i).height ε t ≠ h → δ < |(s.seg i).height ε t - h| := by
  have : ∀ n, ∃ δ, 0 < δ ∧ ∀ i < n, (s.seg i).height ε t ≠ h → δ < |(s.seg i).height ε t - h| := by
    intro n
    induction n with
    | zero => exact ⟨1, one_pos, fun i hi => absurd hi (Nat.not_lt_zero i)⟩
    | succ n ih =>
      obtain ⟨δ, h1, h2⟩ := ih
      by_cases hn : (s.seg n).height ε t = h
      · refine ⟨δ, h1, fun i hi hne => ?_⟩
        rcases Nat.lt_succ_iff_lt_or_eq.mp hi with hi | rfl
        · exact h2 i hi hne
        · exact absurd hn hne
      · obtain ⟨δ', k1, k2⟩ := exists_between (lt_min h1 (abs_pos.mpr (sub_ne_zero.mpr hn)))
        refine ⟨δ', k1, fun i hi hne => ?_⟩
        rcases Nat.lt_succ_iff_lt_or_eq.mp hi with hi | rfl
        · exact (k2.trans_le (min_le_left _ _)).trans (h2 i hi hne)
        · exact k2.trans_le (min_le_right _ _)
  exact this _

/-- Points above and below a point of the sweep line. -/
structure Near (ε : K) (s : State K) (t h δ : K) : Prop where
  pos : 0 < δ
  above : ∀ b, col ε t (h + δ) ∉ s.operand b
  under : ∀ b, col ε t (h - δ) ∉ s.operand b
  upto : ∀ b, below ε s b t (h + δ) = upto ε s b t h
  below : ∀ b, below ε s b t (h - δ) = below ε s b t h

theorem exists_nearby (c : Clock ε P s) (ht : Generic ε P t) (h : K) : ∃ δ, Near ε s t h δ := by
  obtain ⟨δ, hδ, hg⟩ := exists_near ε s t h
  have key : ∀ i < s.nextLeft, ∀ σ, |σ| = δ → (s.seg i).height ε t ≠ h + σ := by
    intro i hi σ hσ e
    by_cases hh : (s.seg i).height ε t = h
    · have : σ = 0 := by linarith
      rw [this, abs_zero] at hσ
      exact hδ.ne hσ
    · have := hg i hi hh
      rw [e, add_sub_cancel_left, hσ] at this
      exact lt_irrefl _ this
  refine ⟨δ, hδ, fun b hm => ?_, fun b hm => ?_, fun b => ?_, fun b => ?_⟩
  · obtain ⟨i, hi, -, e⟩ := (col_mem_operand c ht).mp hm
    exact key i hi δ (abs_of_pos hδ) e
  · obtain ⟨i, hi, -, e⟩ := (col_mem_operand c ht).mp hm
    exact key i hi (-δ) (by rw [abs_neg, abs_of_pos hδ]) (by rw [e]; ring)
  · ext i
    rw [mem_below, mem_upto]
    refine and_congr_right fun hi => and_congr_right fun _ => ⟨fun h1 => ?_, fun h1 => by linarith⟩
    by_contra hn
    have hn := not_le.mp hn
    have := hg i hi hn.ne'
    rw [abs_of_pos (sub_pos.mpr hn)] at this
    linarith
  · ext i
    rw [mem_below, mem_below]
    refine and_congr_right fun hi => and_congr_right fun _ => ⟨fun h1 => by linarith, fun h1 => ?_⟩
    have := hg i hi h1.ne
    rw [abs_of_neg (sub_neg.mpr h1)] at this
    linarith

end

/-! ### areas along the sweep line -/

section

variable {ε : K} {P : Finset (Point K)} {s : State K} {t h δ : K} {b : Bool} {I E : Set (Point K)}

theorem Area.mem_exterior {m : List (Segment K × Bool)} (A : Area ε P m I E) {p : Point K}
    (hp : p ∉ segsPts (m.map Prod.fst)) : p ∈ E ↔ p ∉ I :=
  ⟨fun h h' => A.apart p h' h, fun h => (A.cover p hp).resolve_left h⟩

theorem Area.at_col (A : Area ε P (s.marks b) I E) (ht : Generic ε P t)
    (hn : col ε t h ∉ s.operand b) : (col ε t h ∈ I ↔ Odd (below ε s b t h).card) ∧
      (col ε t h ∈ E ↔ Even (below ε s b t h).card) := by
  rw [← s.segsPts_marks b] at hn
  have h1 := A.parity _ hn (by rw [col_time]; exact ht)
  rw [col_time, State.marks_fst, ← below_card] at h1
  refine ⟨h1, ?_⟩
  rw [A.mem_exterior hn, h1]
  exact Nat.not_odd_iff_even

theorem Near.above_iff (N : Near ε s t h δ) (A : Area ε P (s.marks b) I E) (ht : Generic ε P t) :
    (col ε t (h + δ) ∈ I ↔ Odd (State.upto ε s b t h).card) ∧
      (col ε t (h + δ) ∈ E ↔ Even (State.upto ε s b t h).card) := by
  rw [← N.upto]; exact A.at_col ht (N.above b)

theorem Near.under_iff (N : Near ε s t h δ) (A : Area ε P (s.marks b) I E) (ht : Generic ε P t) :
    (col ε t (h - δ) ∈ I ↔ Odd (State.below ε s b t h).card) ∧
      (col ε t (h - δ) ∈ E ↔ Even (State.below ε s b t h).card) := by
  rw [← N.below]; exact A.at_col ht (N.under b)

/-- On which side of a segment its area is. -/
theorem Near.edge (c : Clock ε P s) (hcl : ¬ Clash s) {i : Nat}
    (N : Near ε s t ((s.seg i).height ε t) δ) (A : Area ε P (s.marks b) I E) (ht : Generic ε P t)
    (hi : i < s.nextLeft) (ai : ActiveAt ε s b t i) :
    (col ε t ((s.seg i).height ε t + δ) ∈ I ↔ (s.lefts i).interiorToLeft = true) ∧
    (col ε t ((s.seg i).height ε t + δ) ∈ E ↔ (s.lefts i).interiorToLeft = false) ∧
    (col ε t ((s.seg i).height ε t - δ) ∈ I ↔ (s.lefts i).interiorToLeft = false) ∧
    (col ε t ((s.seg i).height ε t - δ) ∈ E ↔ (s.lefts i).interiorToLeft = true) := by
  have h1 := A.bounds.sides i hi t ai ht
  have h2 := upto_card c hcl ht hi ai
  have h3 := N.above_iff A ht
  have h4 := N.under_iff A ht
  rw [h2] at h3
  rw [h3.1, h3.2, h4.1, h4.2, Nat.odd_add_one, Nat.not_odd_iff_even, Nat.even_add_one,
    Nat.not_even_iff_odd, ← h1, ← Nat.not_even_iff_odd, ← h1]
  simp

end

end Orient
