import Verif.Lemmas.Sweep.Told
import Mathlib.Algebra.Order.AbsoluteValue.Basic
import Mathlib.Algebra.Group.Nat.Even

/-! Numbers of registered segments below a point and how they change along a line. -/

set_option linter.unusedSectionVars false

namespace Orient

variable {K : Type} [Field K] [LinearOrder K] [IsStrictOrderedRing K]

namespace Segment

variable {ε : K} {u v : Segment K}

/-- Lines which change their order meet in between. -/
theorem height_meet {a b : K} (hab : a < b) (h : u.height ε a < v.height ε a)
    (h' : v.height ε b ≤ u.height ε b) :
    ∃ t, a < t ∧ t ≤ b ∧ u.height ε t = v.height ε t := by
  have eu := height_eq (ε := ε) u b a
  have ev := height_eq (ε := ε) v b a
  set α := v.height ε a - u.height ε a with hα
  set β := u.slope ε - v.slope ε with hβ
  have hα0 : 0 < α := sub_pos.mpr h
  have hd : 0 < b - a := sub_pos.mpr hab
  have hαβ : α ≤ β * (b - a) := by rw [hα, hβ]; linarith
  have hβ0 : 0 < β := by
    by_contra hn
    have := mul_nonpos_of_nonpos_of_nonneg (not_lt.mp hn) hd.le
    linarith
  refine ⟨a + α / β, by linarith [div_pos hα0 hβ0], ?_, ?_⟩
  · have : α / β ≤ b - a := by rw [div_le_iff₀ hβ0]; linarith
    linarith
  · rw [height_eq u (a + α / β) a, height_eq v (a + α / β) a]
    have e : a + α / β - a = α / β := by ring
    rw [e]
    have h4 : β * (α / β) = α := by field_simp
    have h5 : u.slope ε * (α / β) - v.slope ε * (α / β) = α := by rw [← sub_mul, ← hβ, h4]
    linarith

/-- The order immediately after a time stays until the lines meet. -/
theorem After.meet {a b : K} (hab : a < b) (h : After ε a u v)
    (h' : v.height ε b ≤ u.height ε b) :
    ∃ t, a < t ∧ t ≤ b ∧ u.height ε t = v.height ε t := by
  rcases h with h | ⟨h, hs⟩
  · exact height_meet hab h h'
  · exfalso
    have eu := height_eq (ε := ε) u b a
    have ev := height_eq (ε := ε) v b a
    nlinarith

/-- Lines which do not meet keep a distance. -/
theorem height_gap {a b : K}
    (h : ∀ t, a ≤ t → t ≤ b → u.height ε t ≠ v.height ε t) :
    ∃ δ, 0 < δ ∧ ∀ t, a ≤ t → t ≤ b → δ < |u.height ε t - v.height ε t| := by
  rcases lt_or_ge b a with hlt | hle
  · exact ⟨1, one_pos, fun t h1 h2 => absurd (h1.trans h2) (not_le.mpr hlt)⟩
  have main : ∀ u v : Segment K, (∀ t, a ≤ t → t ≤ b → u.height ε t ≠ v.height ε t) →
      u.height ε a < v.height ε a →
      ∃ δ, 0 < δ ∧ ∀ t, a ≤ t → t ≤ b → δ < v.height ε t - u.height ε t := by
    intro u v h ha
    have hb : u.height ε b < v.height ε b := by
      rcases hle.eq_or_lt with rfl | hlt
      · exact ha
      · by_contra hn
        obtain ⟨t, h1, h2, h3⟩ := height_meet hlt ha (not_lt.mp hn)
        exact h t h1.le h2 h3
    obtain ⟨δ, h1, h2⟩ := exists_between (lt_min (sub_pos.mpr ha) (sub_pos.mpr hb))
    refine ⟨δ, h1, fun t k1 k2 => ?_⟩
    have l1 := h2.trans_le (min_le_left _ _)
    have l2 := h2.trans_le (min_le_right _ _)
    have e1 := height_eq (ε := ε) u t a
    have e2 := height_eq (ε := ε) v t a
    have e3 := height_eq (ε := ε) u t b
    have e4 := height_eq (ε := ε) v t b
    rcases le_total (u.slope ε) (v.slope ε) with hs | hs
    · nlinarith [mul_nonneg (sub_nonneg.mpr hs) (sub_nonneg.mpr k1)]
    · nlinarith [mul_nonneg (sub_nonneg.mpr hs) (sub_nonneg.mpr k2)]
  rcases lt_or_gt_of_ne (h a le_rfl hle) with ha | ha
  · obtain ⟨δ, h1, h2⟩ := main u v h ha
    refine ⟨δ, h1, fun t k1 k2 => ?_⟩
    rw [abs_sub_comm]
    exact (h2 t k1 k2).trans_le (le_abs_self _)
  · obtain ⟨δ, h1, h2⟩ := main v u (fun t k1 k2 => (h t k1 k2).symm) ha
    exact ⟨δ, h1, fun t k1 k2 => (h2 t k1 k2).trans_le (le_abs_self _)⟩

/-- A segment along a shifted line. -/
def shifted (ε : K) (v : Segment K) (δ a b : K) : Segment K :=
  ⟨⟨a - ε * (v.height ε a + δ), v.height ε a + δ⟩, ⟨b - ε * (v.height ε b + δ), v.height ε b + δ⟩⟩

theorem shifted_times (v : Segment K) (δ a b : K) : (v.shifted ε δ a b).start.time ε = a ∧
    (v.shifted ε δ a b).finish.time ε = b := by
  constructor <;> · unfold shifted Point.time; ring

theorem mem_shifted {v : Segment K} {δ a b : K} (hab : a < b) {x : Point K}
    (hx : x ∈ (v.shifted ε δ a b).pts) :
    a ≤ x.time ε ∧ x.time ε ≤ b ∧ x.y = v.height ε (x.time ε) + δ := by
  obtain ⟨h1, h2⟩ := shifted_times (ε := ε) v δ a b
  have hlt : (v.shifted ε δ a b).start.time ε < (v.shifted ε δ a b).finish.time ε := by
    rw [h1, h2]; exact hab
  obtain ⟨k1, k2, k3⟩ := (mem_pts_iff_height hlt x).mp hx
  rw [h1] at k1
  rw [h2] at k2
  refine ⟨k1, k2, ?_⟩
  have hs : (v.shifted ε δ a b).slope ε = v.slope ε := by
    have hne : b - a ≠ 0 := by linarith
    unfold slope
    rw [h1, h2]
    change (v.height ε b + δ - (v.height ε a + δ)) / (b - a) = _
    rw [div_eq_iff hne, height_eq v b a]
    unfold slope
    ring
  rw [k3, height, hs, h1, height_eq v (x.time ε) a]
  change v.height ε a + δ + _ = _
  ring

end Segment

namespace State

open Segment

/-- A piece of the operand exists at the time. -/
def ActiveAt (ε : K) (s : State K) (b : Bool) (t : K) (i : Nat) : Prop :=
  (s.lefts i).fromTest = b ∧ (s.lefts i).start.time ε < t ∧ t < (s.leftEnd i).time ε

instance (ε : K) (s : State K) (b : Bool) (t : K) (i : Nat) : Decidable (ActiveAt ε s b t i) := by
  unfold ActiveAt; infer_instance

/-- The segments of an operand below a point. -/
def below (ε : K) (s : State K) (b : Bool) (t h : K) : Finset Nat :=
  (Finset.range s.nextLeft).filter fun i => ActiveAt ε s b t i ∧ (s.seg i).height ε t < h

/-- The segments of an operand below a point or through it. -/
def upto (ε : K) (s : State K) (b : Bool) (t h : K) : Finset Nat :=
  (Finset.range s.nextLeft).filter fun i => ActiveAt ε s b t i ∧ (s.seg i).height ε t ≤ h

theorem mem_below {ε : K} {s : State K} {b : Bool} {t h : K} {i : Nat} :
    i ∈ below ε s b t h ↔ i < s.nextLeft ∧ ActiveAt ε s b t i ∧ (s.seg i).height ε t < h := by
  simp [below]

theorem mem_upto {ε : K} {s : State K} {b : Bool} {t h : K} {i : Nat} :
    i ∈ upto ε s b t h ↔ i < s.nextLeft ∧ ActiveAt ε s b t i ∧ (s.seg i).height ε t ≤ h := by
  simp [upto]

/-- The time is not the time of any of the points. -/
def Generic (ε : K) (P : Finset (Point K)) (t : K) : Prop := ∀ q ∈ P, q.time ε ≠ t

/-- The number of segments below a point changes evenly along segments which avoid the operand, and
the interior is where it is odd. -/
structure Bounds (ε : K) (P : Finset (Point K)) (s : State K) (b : Bool) : Prop where
  const : ∀ x y : Point K, x.time ε < y.time ε → Generic ε P (x.time ε) → Generic ε P (y.time ε) →
    (∀ i < s.nextLeft, (s.lefts i).fromTest = b → ∀ z ∈ (⟨x, y⟩ : Segment K).pts,
      z ∉ (s.seg i).pts) →
    (Odd (below ε s b (x.time ε) x.y).card ↔ Odd (below ε s b (y.time ε) y.y).card)
  sides : ∀ i < s.nextLeft, ∀ t, ActiveAt ε s b t i → Generic ε P t →
    ((s.lefts i).interiorToLeft = true ↔
      Even (below ε s b t ((s.seg i).height ε t)).card)

/-- The parity of the number of segments below a line does not change while the line does not meet
them. -/
theorem Bounds.persist {ε : K} {P : Finset (Point K)} {s : State K} {b : Bool} (c : Clock ε P s)
    (hB : Bounds ε P s b) (v : Segment K) {t₁ t₂ : K} (hlt : t₁ < t₂) (g₁ : Generic ε P t₁)
    (g₂ : Generic ε P t₂)
    (hno : ∀ i < s.nextLeft, (s.lefts i).fromTest = b → ¬ Same ε v (s.seg i) → ∀ t, t₁ ≤ t → t ≤ t₂ →
      (s.lefts i).start.time ε ≤ t → t ≤ (s.leftEnd i).time ε →
      v.height ε t ≠ (s.seg i).height ε t) :
    (Odd (below ε s b t₁ (v.height ε t₁)).card ↔ Odd (below ε s b t₂ (v.height ε t₂)).card) ∧
    (Odd (upto ε s b t₁ (v.height ε t₁)).card ↔ Odd (upto ε s b t₂ (v.height ε t₂)).card) := by
  -- a distance which all the segments keep
  have gap : ∀ n, n ≤ s.nextLeft → ∃ δ, 0 < δ ∧ ∀ i < n, (s.lefts i).fromTest = b →
      ¬ Same ε v (s.seg i) → ∀ t, t₁ ≤ t → t ≤ t₂ → (s.lefts i).start.time ε ≤ t →
      t ≤ (s.leftEnd i).time ε → δ < |v.height ε t - (s.seg i).height ε t| := by
    intro n
    induction n with
    | zero => exact fun _ => ⟨1, one_pos, fun i hi => absurd hi (Nat.not_lt_zero i)⟩
    | succ n ih =>
      intro hn
      obtain ⟨δ, h1, h2⟩ := ih (Nat.le_of_succ_le hn)
      by_cases hb : (s.lefts n).fromTest = b ∧ ¬ Same ε v (s.seg n)
      · obtain ⟨δ', h1', h2'⟩ := height_gap (ε := ε) (u := v) (v := s.seg n)
          (a := max t₁ ((s.lefts n).start.time ε)) (b := min t₂ ((s.leftEnd n).time ε))
          fun t k1 k2 => hno n hn hb.1 hb.2 t ((le_max_left _ _).trans k1)
            (k2.trans (min_le_left _ _)) ((le_max_right _ _).trans k1) (k2.trans (min_le_right _ _))
        refine ⟨min δ δ', lt_min h1 h1', fun i hi hbi hs t k1 k2 k3 k4 => ?_⟩
        rcases Nat.lt_succ_iff_lt_or_eq.mp hi with hi | rfl
        · exact (min_le_left _ _).trans_lt (h2 i hi hbi hs t k1 k2 k3 k4)
        · exact (min_le_right _ _).trans_lt (h2' t (max_le k1 k3) (le_min k2 k4))
      · refine ⟨δ, h1, fun i hi hbi hs t => ?_⟩
        rcases Nat.lt_succ_iff_lt_or_eq.mp hi with hi | rfl
        · exact h2 i hi hbi hs t
        · exact absurd ⟨hbi, hs⟩ hb
  obtain ⟨δ, hδ, hgap⟩ := gap _ le_rfl
  -- shifted lines avoid the operand
  have shift : ∀ σ, σ ≠ 0 → |σ| = δ →
      (Odd (below ε s b t₁ (v.height ε t₁ + σ)).card ↔
        Odd (below ε s b t₂ (v.height ε t₂ + σ)).card) := by
    intro σ h0 hσ
    obtain ⟨e1, e2⟩ := shifted_times (ε := ε) v σ t₁ t₂
    have := hB.const (v.shifted ε σ t₁ t₂).start (v.shifted ε σ t₁ t₂).finish
      (by rw [e1, e2]; exact hlt) (by rw [e1]; exact g₁) (by rw [e2]; exact g₂) ?_
    · rw [e1, e2] at this
      exact this
    · intro i hi hbi z hz hz'
      obtain ⟨k1, k2, k3⟩ := mem_shifted hlt hz
      obtain ⟨l1, l2, l3⟩ := (mem_pts_iff_height (c.times hi) z).mp hz'
      rw [l3] at k3
      by_cases hs : Same ε v (s.seg i)
      · rw [hs.at] at k3
        exact h0 (by linarith)
      · have := hgap i hi hbi hs _ k1 k2 l1 l2
        rw [k3, ← hσ] at this
        have e : v.height ε (z.time ε) - (v.height ε (z.time ε) + σ) = -σ := by ring
        rw [e, abs_neg] at this
        exact lt_irrefl _ this
  have low : ∀ t, t₁ ≤ t → t ≤ t₂ →
      below ε s b t (v.height ε t + -δ) = below ε s b t (v.height ε t) := by
    intro t k1 k2
    ext i
    rw [mem_below, mem_below]
    refine and_congr_right fun hi => and_congr_right fun ha => ⟨fun h => by linarith, fun h => ?_⟩
    have hs : ¬ Same ε v (s.seg i) := fun hs => h.ne (hs.at t).symm
    have := hgap i hi ha.1 hs t k1 k2 ha.2.1.le ha.2.2.le
    rw [abs_of_pos (by linarith)] at this
    linarith
  have high : ∀ t, t₁ ≤ t → t ≤ t₂ →
      below ε s b t (v.height ε t + δ) = upto ε s b t (v.height ε t) := by
    intro t k1 k2
    ext i
    rw [mem_below, mem_upto]
    refine and_congr_right fun hi => and_congr_right fun ha => ⟨fun h => ?_, fun h => by linarith⟩
    by_contra hn
    have hn := not_le.mp hn
    have hs : ¬ Same ε v (s.seg i) := fun hs => hn.ne (hs.at t)
    have := hgap i hi ha.1 hs t k1 k2 ha.2.1.le ha.2.2.le
    rw [abs_of_neg (by linarith)] at this
    linarith
  constructor
  · have := shift (-δ) (by linarith) (by rw [abs_neg, abs_of_pos hδ])
    rwa [low t₁ le_rfl hlt.le, low t₂ hlt.le le_rfl] at this
  · have := shift δ hδ.ne' (abs_of_pos hδ)
    rwa [high t₁ le_rfl hlt.le, high t₂ hlt.le le_rfl] at this

end State

end Orient
