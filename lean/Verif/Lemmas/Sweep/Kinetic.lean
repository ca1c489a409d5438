import Verif.Lemmas.Sweep.State
import Verif.Model.SweepLine
import Verif.Spec.Context
import Mathlib.Tactic.Linarith
import Mathlib.Tactic.FieldSimp
import Mathlib.Tactic.Ring

/-!
A sweep with a slightly inclined line meets points in the lexicographic order, and every segment
becomes the graph of an affine function of time.
-/

set_option linter.unusedSectionVars false

namespace Orient

variable {K : Type} [Field K] [LinearOrder K] [IsStrictOrderedRing K]

/-- The time at which a line inclined by `ε` meets a point. -/
def Point.time (ε : K) (p : Point K) : K := p.x + ε * p.y

theorem Point.ext_time {ε : K} {p q : Point K} (h : p.time ε = q.time ε) (hy : p.y = q.y) : p = q := by
  unfold Point.time at h
  rw [hy] at h
  exact Point.ext (by linarith) hy

/-- A small inclination respects the order of finitely many points. -/
theorem exists_inclination (P : Finset (Point K)) :
    ∃ ε : K, ∀ p ∈ P, ∀ q ∈ P, p < q → p.time ε < q.time ε := by
  have pair : ∀ p q : Point K, p < q → ∃ ε : K, 0 < ε ∧ ∀ δ, 0 < δ → δ ≤ ε → p.time δ < q.time δ := by
    intro p q h
    rcases (Point.lt_iff p q).mp h with h | ⟨hx, hy⟩
    · refine ⟨(q.x - p.x) / (|p.y - q.y| + 1), div_pos (by linarith) (by positivity), ?_⟩
      intro δ h0 h1
      have hpos : 0 < |p.y - q.y| + 1 := by positivity
      rw [le_div_iff₀ hpos] at h1
      have h2 := le_abs_self (p.y - q.y)
      unfold Point.time
      nlinarith
    · refine ⟨1, one_pos, fun δ h0 _ => ?_⟩
      unfold Point.time
      rw [hx]
      nlinarith
  have many : ∀ l : List (Point K × Point K), (∀ z ∈ l, z.1 < z.2) →
      ∃ ε : K, 0 < ε ∧ ∀ δ, 0 < δ → δ ≤ ε → ∀ z ∈ l, z.1.time δ < z.2.time δ := by
    intro l
    induction l with
    | nil => exact fun _ => ⟨1, one_pos, by simp⟩
    | cons z l ih =>
      intro h
      obtain ⟨ε₁, p1, h1⟩ := ih fun w hw => h w (List.mem_cons_of_mem _ hw)
      obtain ⟨ε₂, p2, h2⟩ := pair z.1 z.2 (h z (List.mem_cons_self ..))
      refine ⟨min ε₁ ε₂, lt_min p1 p2, fun δ h0 hδ w hw => ?_⟩
      rcases List.mem_cons.mp hw with rfl | hw
      · exact h2 δ h0 (hδ.trans (min_le_right _ _))
      · exact h1 δ h0 (hδ.trans (min_le_left _ _)) w hw
  obtain ⟨ε, p, h⟩ := many ((P ×ˢ P).filter fun z => z.1 < z.2).toList (by simp)
  refine ⟨ε, fun a ha b hb hab => ?_⟩
  exact h ε p le_rfl (a, b) (by simp [ha, hb, hab])

namespace Segment

/-- The slope of a segment as a function of time. -/
def slope (ε : K) (u : Segment K) : K :=
  (u.finish.y - u.start.y) / (u.finish.time ε - u.start.time ε)

/-- The ordinate of the line of a segment at the given time. -/
def height (ε : K) (u : Segment K) (t : K) : K := u.start.y + u.slope ε * (t - u.start.time ε)

variable {ε : K} {u v : Segment K}

theorem height_eq (u : Segment K) (t t' : K) : u.height ε t = u.height ε t' + u.slope ε * (t - t') := by
  unfold height; ring

theorem height_start (u : Segment K) : u.height ε (u.start.time ε) = u.start.y := by
  unfold height; ring

theorem height_finish (h : u.start.time ε < u.finish.time ε) :
    u.height ε (u.finish.time ε) = u.finish.y := by
  unfold height slope
  have : u.finish.time ε - u.start.time ε ≠ 0 := by linarith
  field_simp
  ring

theorem slope_mul (h : u.start.time ε < u.finish.time ε) :
    u.slope ε * (u.finish.time ε - u.start.time ε) = u.finish.y - u.start.y := by
  unfold slope
  have : u.finish.time ε - u.start.time ε ≠ 0 := by linarith
  field_simp

/-- The side of the line on which a point lies is seen from its height. -/
theorem cross_eq_height (h : u.start.time ε < u.finish.time ε) (q : Point K) :
    cross u.start u.finish q
      = (u.finish.time ε - u.start.time ε) * (q.y - u.height ε (q.time ε)) := by
  have := slope_mul h
  unfold height
  have e : (u.finish.time ε - u.start.time ε) *
      (q.y - (u.start.y + u.slope ε * (q.time ε - u.start.time ε)))
      = (u.finish.time ε - u.start.time ε) * (q.y - u.start.y)
        - u.slope ε * (u.finish.time ε - u.start.time ε) * (q.time ε - u.start.time ε) := by ring
  rw [e, this]
  unfold cross Point.time
  ring

theorem mem_pts_iff_height (h : u.start.time ε < u.finish.time ε) (q : Point K) :
    q ∈ u.pts ↔ u.start.time ε ≤ q.time ε ∧ q.time ε ≤ u.finish.time ε ∧
      q.y = u.height ε (q.time ε) := by
  constructor
  · rintro ⟨t, h0, h1, rfl⟩
    have ht : (lerp u.start u.finish t).time ε
        = u.start.time ε + t * (u.finish.time ε - u.start.time ε) := by
      unfold lerp Point.time; ring
    refine ⟨?_, ?_, ?_⟩
    · rw [ht]; nlinarith
    · rw [ht]; nlinarith
    · rw [ht]
      have := slope_mul h
      unfold height
      have e : u.slope ε * (u.start.time ε + t * (u.finish.time ε - u.start.time ε)
          - u.start.time ε) = t * (u.slope ε * (u.finish.time ε - u.start.time ε)) := by ring
      rw [e, this]
      simp [lerp]
  · rintro ⟨h0, h1, h2⟩
    have hpos : 0 < u.finish.time ε - u.start.time ε := by linarith
    refine ⟨(q.time ε - u.start.time ε) / (u.finish.time ε - u.start.time ε),
      div_nonneg (by linarith) hpos.le, (div_le_one hpos).mpr (by linarith), ?_⟩
    have ey : q.y = u.start.y + (q.time ε - u.start.time ε) / (u.finish.time ε - u.start.time ε)
        * (u.finish.y - u.start.y) := by
      rw [h2, height, slope]; ring
    refine Point.ext_time (ε := ε) ?_ ey
    unfold lerp Point.time
    unfold Point.time at hpos
    have := hpos.ne'
    simp only
    generalize hr : (q.x + ε * q.y - (u.start.x + ε * u.start.y)) /
      (u.finish.x + ε * u.finish.y - (u.start.x + ε * u.start.y)) = r
    have hr' : q.x + ε * q.y - (u.start.x + ε * u.start.y)
        = r * (u.finish.x + ε * u.finish.y - (u.start.x + ε * u.start.y)) := by
      rw [← hr, div_mul_cancel₀ _ this]
    linear_combination hr'

/-- The point of a segment at the given time. -/
def pointAt (ε : K) (u : Segment K) (t : K) : Point K := ⟨t - ε * u.height ε t, u.height ε t⟩

theorem pointAt_time (u : Segment K) (t : K) : (u.pointAt ε t).time ε = t := by
  unfold pointAt Point.time; ring

theorem pointAt_mem (h : u.start.time ε < u.finish.time ε) {t : K} (h0 : u.start.time ε ≤ t)
    (h1 : t ≤ u.finish.time ε) : u.pointAt ε t ∈ u.pts := by
  rw [mem_pts_iff_height h, pointAt_time]
  exact ⟨h0, h1, rfl⟩

/-- The segments lie on one line. -/
structure Same (ε : K) (u v : Segment K) : Prop where
  slope : u.slope ε = v.slope ε
  height : u.height ε 0 = v.height ε 0

theorem Same.refl (u : Segment K) : Same ε u u := ⟨rfl, rfl⟩

theorem Same.symm (h : Same ε u v) : Same ε v u := ⟨h.slope.symm, h.height.symm⟩

theorem Same.trans {w : Segment K} (h : Same ε u v) (h' : Same ε v w) : Same ε u w :=
  ⟨h.slope.trans h'.slope, h.height.trans h'.height⟩

theorem Same.at (h : Same ε u v) (t : K) : u.height ε t = v.height ε t := by
  rw [height_eq u t 0, height_eq v t 0, h.slope, h.height]

theorem same_of_at {t : K} (h : u.height ε t = v.height ε t) (hs : u.slope ε = v.slope ε) :
    Same ε u v :=
  ⟨hs, by rw [height_eq u 0 t, height_eq v 0 t, h, hs]⟩

/-- Lines which meet twice are the same. -/
theorem same_of_two {t t' : K} (hne : t ≠ t') (h : u.height ε t = v.height ε t)
    (h' : u.height ε t' = v.height ε t') : Same ε u v := by
  refine same_of_at h ?_
  have h1 := height_eq (ε := ε) u t' t
  have h2 := height_eq (ε := ε) v t' t
  have : (u.slope ε - v.slope ε) * (t' - t) = 0 := by linear_combination h2 - h1 + h' - h
  rcases mul_eq_zero.mp this with e | e
  · linarith
  · exact absurd (by linarith) hne

/-- A segment with endpoints on a line lies on it. -/
theorem same_of_endpoints (hv : v.start.time ε < v.finish.time ε)
    (h0 : v.start.y = u.height ε (v.start.time ε))
    (h1 : v.finish.y = u.height ε (v.finish.time ε)) : Same ε u v :=
  same_of_two hv.ne (by rw [← h0, height_start]) (by rw [← h1, height_finish hv])

theorem same_of_subset (hu : u.start.time ε < u.finish.time ε)
    (hv : v.start.time ε < v.finish.time ε) (h0 : v.start ∈ u.pts) (h1 : v.finish ∈ u.pts) :
    Same ε u v :=
  same_of_endpoints hv ((mem_pts_iff_height hu _).mp h0).2.2 ((mem_pts_iff_height hu _).mp h1).2.2

/-- `u` is below `v` immediately after the time. -/
def After (ε t : K) (u v : Segment K) : Prop :=
  u.height ε t < v.height ε t ∨ (u.height ε t = v.height ε t ∧ u.slope ε < v.slope ε)

/-- `u` is below `v` immediately before the time. -/
def Before (ε t : K) (u v : Segment K) : Prop :=
  u.height ε t < v.height ε t ∨ (u.height ε t = v.height ε t ∧ v.slope ε < u.slope ε)

theorem After.trans {t : K} {w : Segment K} (h : After ε t u v) (h' : After ε t v w) :
    After ε t u w := by
  rcases h with h | ⟨h, h1⟩ <;> rcases h' with h' | ⟨h', h1'⟩
  · exact .inl (h.trans h')
  · exact .inl (h' ▸ h)
  · exact .inl (h ▸ h')
  · exact .inr ⟨h.trans h', h1.trans h1'⟩

theorem After.not_symm {t : K} (h : After ε t u v) : ¬ After ε t v u := by
  rintro h'
  rcases h with h | ⟨h, h1⟩ <;> rcases h' with h' | ⟨h', h1'⟩
  · exact lt_asymm h h'
  · exact h.ne h'.symm
  · exact h'.ne h.symm
  · exact lt_asymm h1 h1'

theorem After.not_same {t : K} (h : After ε t u v) : ¬ Same ε u v := by
  rintro hs
  rcases h with h | ⟨_, h⟩
  · exact h.ne (hs.at t)
  · exact h.ne hs.slope

theorem after_total {t : K} (h : ¬ Same ε u v) : After ε t u v ∨ After ε t v u := by
  rcases lt_trichotomy (u.height ε t) (v.height ε t) with e | e | e
  · exact .inl (.inl e)
  · rcases lt_trichotomy (u.slope ε) (v.slope ε) with e' | e' | e'
    · exact .inl (.inr ⟨e, e'⟩)
    · exact absurd (same_of_at e e') h
    · exact .inr (.inr ⟨e.symm, e'⟩)
  · exact .inr (.inl e)

theorem After.congr {t : K} {u' v' : Segment K} (h : After ε t u v) (hu : Same ε u u')
    (hv : Same ε v v') : After ε t u' v' := by
  unfold After at *
  rwa [← hu.at, ← hv.at, ← hu.slope, ← hv.slope]

theorem Before.trans {t : K} {w : Segment K} (h : Before ε t u v) (h' : Before ε t v w) :
    Before ε t u w := by
  rcases h with h | ⟨h, h1⟩ <;> rcases h' with h' | ⟨h', h1'⟩
  · exact .inl (h.trans h')
  · exact .inl (h' ▸ h)
  · exact .inl (h ▸ h')
  · exact .inr ⟨h.trans h', h1'.trans h1⟩

theorem Before.congr {t : K} {u' v' : Segment K} (h : Before ε t u v) (hu : Same ε u u')
    (hv : Same ε v v') : Before ε t u' v' := by
  unfold Before at *
  rwa [← hu.at, ← hv.at, ← hu.slope, ← hv.slope]

theorem Before.not_same {t : K} (h : Before ε t u v) : ¬ Same ε u v := by
  rintro hs
  rcases h with h | ⟨_, h⟩
  · exact h.ne (hs.at t)
  · exact h.ne hs.slope.symm

end Segment

/-! ### the comparison of the sweep line -/

namespace sweepLine

set_option maxHeartbeats 1000000 in
/-- The arithmetic of `SweepLineKey.__lt__`: `α + β t` is the height of the other segment above this
one, `a₁ < a₂` and `b₁ < b₂` are the times of endpoints of this segment and of the other one. -/
theorem lt_arith (α β a₁ a₂ b₁ b₂ s : K) (ha : a₁ < a₂) (hb : b₁ < b₂) (hs : s = max a₁ b₁)
    (h1 : s ≤ a₂) (h2 : s ≤ b₂) (h3 : s = a₂ ∨ s = b₂ → α + β * s = 0)
    (o₁ o₂ p₁ p₂ : Orientation) (fromTest : Bool)
    (ho₁ : (o₁ = .counterclockwise ↔ 0 < α + β * b₁) ∧ (o₁ = .clockwise ↔ α + β * b₁ < 0))
    (ho₂ : (o₂ = .counterclockwise ↔ 0 < α + β * b₂) ∧ (o₂ = .clockwise ↔ α + β * b₂ < 0))
    (hp₁ : (p₁ = .counterclockwise ↔ α + β * a₁ < 0) ∧ (p₁ = .clockwise ↔ 0 < α + β * a₁))
    (hp₂ : (p₂ = .counterclockwise ↔ α + β * a₂ < 0) ∧ (p₂ = .clockwise ↔ 0 < α + β * a₂)) :
    (if o₁ = o₂ then
      if o₁ = .collinear then fromTest else decide (o₁ = .counterclockwise)
    else if p₁ = p₂ then decide (p₁ = .clockwise)
    else if o₁ = .collinear then decide (o₂ = .counterclockwise)
    else if p₁ = .collinear then decide (p₂ = .clockwise)
    else if p₂ = .collinear then decide (p₁ = .clockwise)
    else decide (o₁ = .counterclockwise)) = true ↔
      (α = 0 ∧ β = 0 ∧ fromTest = true) ∨ (0 < α + β * s ∨ (α + β * s = 0 ∧ 0 < β)) := by
  have sign : ∀ x : K, ∀ o : Orientation,
      ((o = .counterclockwise ↔ 0 < x) ∧ (o = .clockwise ↔ x < 0)) →
      (o = .counterclockwise ∧ 0 < x) ∨ (o = .collinear ∧ x = 0) ∨ (o = .clockwise ∧ x < 0) := by
    rintro x o ⟨h1, h2⟩
    cases o with
    | counterclockwise => exact .inl ⟨rfl, h1.mp rfl⟩
    | clockwise => exact .inr (.inr ⟨rfl, h2.mp rfl⟩)
    | collinear =>
      refine .inr (.inl ⟨rfl, le_antisymm (not_lt.mp fun h => ?_) (not_lt.mp fun h => ?_)⟩)
      · exact absurd (h1.mpr h) (by decide)
      · exact absurd (h2.mpr h) (by decide)
  have sign' : ∀ x : K, ∀ o : Orientation,
      ((o = .counterclockwise ↔ x < 0) ∧ (o = .clockwise ↔ 0 < x)) →
      (o = .counterclockwise ∧ x < 0) ∨ (o = .collinear ∧ x = 0) ∨ (o = .clockwise ∧ 0 < x) := by
    rintro x o ⟨h1, h2⟩
    rcases sign (-x) o ⟨by rw [h1]; simp, by rw [h2]; simp⟩ with ⟨e, h⟩ | ⟨e, h⟩ | ⟨e, h⟩
    · exact .inl ⟨e, by linarith⟩
    · exact .inr (.inl ⟨e, by linarith⟩)
    · exact .inr (.inr ⟨e, by linarith⟩)
  have s1 := sign _ _ ho₁
  have s2 := sign _ _ ho₂
  have s3 := sign' _ _ hp₁
  have s4 := sign' _ _ hp₂
  clear ho₁ ho₂ hp₁ hp₂ sign sign'
  have hsa : a₁ ≤ s := hs ▸ le_max_left _ _
  have hsb : b₁ ≤ s := hs ▸ le_max_right _ _
  have hsab : s = a₁ ∨ s = b₁ := by rw [hs]; exact max_choice _ _
  -- only the order of the values matters
  rcases lt_trichotomy β 0 with hβ | hβ | hβ
  · have mono : ∀ x y, x < y → α + β * y < α + β * x := fun x y h => by nlinarith
    have mono' : ∀ x y, x ≤ y → α + β * y ≤ α + β * x := fun x y h => by nlinarith
    have c1 := mono _ _ ha
    have c2 := mono _ _ hb
    have c3 := mono' _ _ hsa
    have c4 := mono' _ _ hsb
    have c5 := mono' _ _ h1
    have c6 := mono' _ _ h2
    have c7 : α + β * s = α + β * a₂ → α + β * s = 0 := fun h =>
      h3 (.inl (by
        rcases h1.eq_or_lt with e | e
        · exact e
        · exact absurd h (mono _ _ e).ne'))
    have c8 : α + β * s = α + β * b₂ → α + β * s = 0 := fun h =>
      h3 (.inr (by
        rcases h2.eq_or_lt with e | e
        · exact e
        · exact absurd h (mono _ _ e).ne'))
    have c9 : α + β * s = α + β * a₁ ∨ α + β * s = α + β * b₁ := by
      rcases hsab with e | e
      · exact .inl (by rw [e])
      · exact .inr (by rw [e])
    have c10 : ¬ (α = 0 ∧ β = 0 ∧ fromTest = true) := fun h => hβ.ne h.2.1
    have c11 : ¬ 0 < β := not_lt.mpr hβ.le
    clear h3 h1 h2 hs ha hb hsa hsb hsab mono mono'
    generalize α + β * s = ds at *
    generalize α + β * a₁ = e1 at *
    generalize α + β * a₂ = e2 at *
    generalize α + β * b₁ = d1 at *
    generalize α + β * b₂ = d2 at *
    rw [or_iff_right c10]
    simp only [c11, and_false, or_false]
    clear c10
    rcases s1 with ⟨rfl, s1⟩ | ⟨rfl, s1⟩ | ⟨rfl, s1⟩ <;>
    rcases s2 with ⟨rfl, s2⟩ | ⟨rfl, s2⟩ | ⟨rfl, s2⟩ <;>
    rcases s3 with ⟨rfl, s3⟩ | ⟨rfl, s3⟩ | ⟨rfl, s3⟩ <;>
    rcases s4 with ⟨rfl, s4⟩ | ⟨rfl, s4⟩ | ⟨rfl, s4⟩ <;>
    first
    | (exfalso; linarith)
    | (simp; rcases c9 with e | e <;> linarith)
  · subst hβ
    simp only [zero_mul, add_zero] at *
    rcases s1 with ⟨rfl, s1⟩ | ⟨rfl, s1⟩ | ⟨rfl, s1⟩ <;>
    rcases s2 with ⟨rfl, s2⟩ | ⟨rfl, s2⟩ | ⟨rfl, s2⟩ <;>
    first
    | (exfalso; linarith)
    | (simp [s1]; done)
    | (simp; exact ⟨fun e => absurd e s1.ne, s1.le⟩)
  · have mono : ∀ x y, x < y → α + β * x < α + β * y := fun x y h => by nlinarith
    have mono' : ∀ x y, x ≤ y → α + β * x ≤ α + β * y := fun x y h => by nlinarith
    have c1 := mono _ _ ha
    have c2 := mono _ _ hb
    have c3 := mono' _ _ hsa
    have c4 := mono' _ _ hsb
    have c5 := mono' _ _ h1
    have c6 := mono' _ _ h2
    have c7 : α + β * s = α + β * a₂ → α + β * s = 0 := fun h =>
      h3 (.inl (by
        rcases h1.eq_or_lt with e | e
        · exact e
        · exact absurd h (mono _ _ e).ne))
    have c8 : α + β * s = α + β * b₂ → α + β * s = 0 := fun h =>
      h3 (.inr (by
        rcases h2.eq_or_lt with e | e
        · exact e
        · exact absurd h (mono _ _ e).ne))
    have c9 : α + β * s = α + β * a₁ ∨ α + β * s = α + β * b₁ := by
      rcases hsab with e | e
      · exact .inl (by rw [e])
      · exact .inr (by rw [e])
    have c10 : ¬ (α = 0 ∧ β = 0 ∧ fromTest = true) := fun h => hβ.ne' h.2.1
    have c11 : 0 < β := hβ
    clear h3 h1 h2 hs ha hb hsa hsb hsab mono mono'
    generalize α + β * s = ds at *
    generalize α + β * a₁ = e1 at *
    generalize α + β * a₂ = e2 at *
    generalize α + β * b₁ = d1 at *
    generalize α + β * b₂ = d2 at *
    rw [or_iff_right c10]
    simp only [c11, and_true]
    have e : (0 < ds ∨ ds = 0) ↔ 0 ≤ ds :=
      ⟨fun h => h.elim le_of_lt ge_of_eq, fun h => h.lt_or_eq.imp id Eq.symm⟩
    rw [e]
    clear c10
    rcases s1 with ⟨rfl, s1⟩ | ⟨rfl, s1⟩ | ⟨rfl, s1⟩ <;>
    rcases s2 with ⟨rfl, s2⟩ | ⟨rfl, s2⟩ | ⟨rfl, s2⟩ <;>
    rcases s3 with ⟨rfl, s3⟩ | ⟨rfl, s3⟩ | ⟨rfl, s3⟩ <;>
    rcases s4 with ⟨rfl, s4⟩ | ⟨rfl, s4⟩ | ⟨rfl, s4⟩ <;>
    first
    | (exfalso; linarith)
    | (simp; rcases c9 with e | e <;> linarith)

/-- The comparison of two segments which the inclined line meets at the same time: it tells which one
is below immediately after the later of the two starts. -/
theorem lt_iff {context : Context K} (hc : context.Exact) {ε : K} {s : State K} {i j : Nat}
    (hij : i ≠ j) (hi : (s.lefts i).start.time ε < (s.leftEnd i).time ε)
    (hj : (s.lefts j).start.time ε < (s.leftEnd j).time ε)
    (h1 : (s.lefts j).start.time ε ≤ (s.leftEnd i).time ε)
    (h2 : (s.lefts i).start.time ε ≤ (s.leftEnd j).time ε)
    (h3 : (s.lefts j).start.time ε = (s.leftEnd i).time ε → (s.lefts j).start = s.leftEnd i)
    (h4 : (s.lefts i).start.time ε = (s.leftEnd j).time ε → (s.lefts i).start = s.leftEnd j) :
    lt context s i j = true ↔ (Segment.Same ε (s.seg i) (s.seg j) ∧ (s.lefts i).fromTest = true) ∨
      Segment.After ε (max ((s.lefts i).start.time ε) ((s.lefts j).start.time ε)) (s.seg i) (s.seg j) := by
  set a₁ := (s.lefts i).start.time ε with ea₁
  set a₂ := (s.leftEnd i).time ε with ea₂
  set b₁ := (s.lefts j).start.time ε with eb₁
  set b₂ := (s.leftEnd j).time ε with eb₂
  set α := (s.seg j).height ε 0 - (s.seg i).height ε 0 with eα
  set β := (s.seg j).slope ε - (s.seg i).slope ε with eβ
  have hD : ∀ t, α + β * t = (s.seg j).height ε t - (s.seg i).height ε t := by
    intro t
    rw [Segment.height_eq (s.seg j) t 0, Segment.height_eq (s.seg i) t 0, eα, eβ]; ring
  have hi' : (s.seg i).start.time ε < (s.seg i).finish.time ε := hi
  have hj' : (s.seg j).start.time ε < (s.seg j).finish.time ε := hj
  have sj : (s.lefts j).start.y = (s.seg j).height ε b₁ := (Segment.height_start (s.seg j)).symm
  have si : (s.lefts i).start.y = (s.seg i).height ε a₁ := (Segment.height_start (s.seg i)).symm
  have fj : (s.leftEnd j).y = (s.seg j).height ε b₂ := (Segment.height_finish hj').symm
  have fi : (s.leftEnd i).y = (s.seg i).height ε a₂ := (Segment.height_finish hi').symm
  have c1 : cross (s.lefts i).start (s.leftEnd i) (s.lefts j).start = (a₂ - a₁) * (α + β * b₁) := by
    rw [hD, ← sj]; exact Segment.cross_eq_height hi' _
  have c2 : cross (s.lefts i).start (s.leftEnd i) (s.leftEnd j) = (a₂ - a₁) * (α + β * b₂) := by
    rw [hD, ← fj]; exact Segment.cross_eq_height hi' _
  have c3 : cross (s.lefts j).start (s.leftEnd j) (s.lefts i).start = (b₂ - b₁) * -(α + β * a₁) := by
    rw [hD, ← si]; exact (Segment.cross_eq_height hj' _).trans (by simp only [← ea₁, ← eb₁, State.seg, ← eb₂]; ring)
  have c4 : cross (s.lefts j).start (s.leftEnd j) (s.leftEnd i) = (b₂ - b₁) * -(α + β * a₂) := by
    rw [hD, ← fi]; exact (Segment.cross_eq_height hj' _).trans (by simp only [← ea₂, ← eb₁, State.seg, ← eb₂]; ring)
  have pa : 0 < a₂ - a₁ := by linarith
  have pb : 0 < b₂ - b₁ := by linarith
  have key := lt_arith α β a₁ a₂ b₁ b₂ (max a₁ b₁) hi hj rfl (max_le hi.le h1) (max_le h2 hj.le)
    (by
      rw [hD, sub_eq_zero]
      rintro (e | e)
      · have e' : b₁ = a₂ := by
          rcases max_choice a₁ b₁ with h | h
          · exact absurd (h.symm.trans e) hi.ne
          · exact h.symm.trans e
        rw [e, ← fi, ← e', ← sj, h3 e']
      · have e' : a₁ = b₂ := by
          rcases max_choice a₁ b₁ with h | h
          · exact h.symm.trans e
          · exact absurd (h.symm.trans e) hj.ne
        rw [e, ← fj, ← e', ← si, h4 e'])
    (context.angleOrientation (s.lefts i).start (s.leftEnd i) (s.lefts j).start)
    (context.angleOrientation (s.lefts i).start (s.leftEnd i) (s.leftEnd j))
    (context.angleOrientation (s.lefts j).start (s.leftEnd j) (s.lefts i).start)
    (context.angleOrientation (s.lefts j).start (s.leftEnd j) (s.leftEnd i))
    (s.lefts i).fromTest
    (by rw [hc.counterclockwise, hc.clockwise, c1, mul_pos_iff_of_pos_left pa]
        exact ⟨Iff.rfl, by rw [mul_neg_iff]; constructor
                           · rintro (h | h)
                             · exact h.2
                             · linarith [h.1]
                           · exact fun h => .inl ⟨pa, h⟩⟩)
    (by rw [hc.counterclockwise, hc.clockwise, c2, mul_pos_iff_of_pos_left pa]
        exact ⟨Iff.rfl, by rw [mul_neg_iff]; constructor
                           · rintro (h | h)
                             · exact h.2
                             · linarith [h.1]
                           · exact fun h => .inl ⟨pa, h⟩⟩)
    (by rw [hc.counterclockwise, hc.clockwise, c3, mul_pos_iff_of_pos_left pb]
        exact ⟨neg_pos, by rw [mul_neg_iff]; constructor
                           · rintro (h | h)
                             · linarith [h.2]
                             · linarith [h.1]
                           · exact fun h => .inl ⟨pb, by linarith⟩⟩)
    (by rw [hc.counterclockwise, hc.clockwise, c4, mul_pos_iff_of_pos_left pb]
        exact ⟨neg_pos, by rw [mul_neg_iff]; constructor
                           · rintro (h | h)
                             · linarith [h.2]
                             · linarith [h.1]
                           · exact fun h => .inl ⟨pb, by linarith⟩⟩)
  unfold lt
  rw [if_neg hij]
  simp only
  rw [key]
  have e1 : (0 < α + β * max a₁ b₁ ∨ α + β * max a₁ b₁ = 0 ∧ 0 < β) ↔
      Segment.After ε (max a₁ b₁) (s.seg i) (s.seg j) := by
    unfold Segment.After
    rw [hD, sub_pos, sub_eq_zero, eβ, sub_pos, eq_comm]
  have e2 : (α = 0 ∧ β = 0 ∧ (s.lefts i).fromTest = true) ↔
      Segment.Same ε (s.seg i) (s.seg j) ∧ (s.lefts i).fromTest = true := by
    rw [← and_assoc]
    refine and_congr_left' ⟨fun h => ⟨?_, ?_⟩, fun h => ⟨?_, ?_⟩⟩
    · have := h.2; rw [eβ, sub_eq_zero] at this; exact this.symm
    · have := h.1; rw [eα, sub_eq_zero] at this; exact this.symm
    · rw [eα, h.height, sub_self]
    · rw [eβ, h.slope, sub_self]
  rw [e1, e2]

end sweepLine

end Orient
