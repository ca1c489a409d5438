import Verif.Lemmas.Sweep.Scenes
import Verif.Spec.Joined

/-! Points with the same location with respect to a simple contour are joined by polylines which avoid
the contour. -/

set_option linter.unusedSectionVars false

namespace Orient

variable {K : Type} [Field K] [LinearOrder K] [IsStrictOrderedRing K]

open Segment

namespace Joined

variable {S : Set (Point K)} {p q r : Point K}

theorem single (h : ∀ z ∈ (⟨p, q⟩ : Segment K).pts, z ∉ S) : Joined S p q := .step .refl h

theorem trans (h : Joined S p q) (h' : Joined S q r) : Joined S p r := by
  induction h' with
  | refl => exact h
  | step _ h2 ih => exact .step ih h2

theorem symm (h : Joined S p q) : Joined S q p := by
  induction h with
  | refl => exact .refl
  | step _ h2 ih =>
    refine (single ?_).trans ih
    intro z hz
    exact h2 z (by rw [← Segment.pts_reverse] at hz; exact hz)

end Joined

section legs

variable {ε : K}

theorem mem_leg {t h t' h' : K} {z : Point K} (hz : z ∈ (⟨col ε t h, col ε t' h'⟩ : Segment K).pts) :
    ∃ r, 0 ≤ r ∧ r ≤ 1 ∧ z = col ε (t + r * (t' - t)) (h + r * (h' - h)) := by
  obtain ⟨r, r0, r1, rfl⟩ := hz
  refine ⟨r, r0, r1, ?_⟩
  unfold col lerp
  exact Point.ext (by simp only; ring) rfl

theorem joined_leg {S : Set (Point K)} {t h t' h' : K}
    (H : ∀ r, 0 ≤ r → r ≤ 1 → col ε (t + r * (t' - t)) (h + r * (h' - h)) ∉ S) :
    Joined S (col ε t h) (col ε t' h') := by
  refine .single fun z hz => ?_
  obtain ⟨r, r0, r1, rfl⟩ := mem_leg hz
  exact H r r0 r1

theorem height_between (u : Segment K) (t t' r : K) :
    u.height ε (t + r * (t' - t)) = u.height ε t + r * (u.height ε t' - u.height ε t) := by
  rw [height_eq u t' t, height_eq u (t + r * (t' - t)) t]; ring

/-- The point is next to the segment at the side given by the sign. -/
def Side (ε : K) (S : Set (Point K)) (e : Segment K) (t σ : K) (p : Point K) : Prop :=
  e.Live ε t ∧ ∃ δ, 0 < δ ∧ p = col ε t (e.height ε t + σ * δ) ∧
    ∀ δ', 0 < δ' → δ' ≤ δ → col ε t (e.height ε t + σ * δ') ∉ S

theorem Side.joined {S : Set (Point K)} {e : Segment K} {t σ : K} {p q : Point K}
    (hp : Side ε S e t σ p) (hq : Side ε S e t σ q) : Joined S p q := by
  obtain ⟨-, δ, h1, rfl, h2⟩ := hp
  obtain ⟨-, δ', h1', rfl, h2'⟩ := hq
  refine joined_leg fun r r0 r1 => ?_
  have e1 : t + r * (t - t) = t := by ring
  have e2 : e.height ε t + σ * δ + r * (e.height ε t + σ * δ' - (e.height ε t + σ * δ))
      = e.height ε t + σ * (δ + r * (δ' - δ)) := by ring
  rw [e1, e2]
  rcases le_total δ δ' with h | h
  · exact h2' _ (by nlinarith) (by nlinarith)
  · exact h2 _ (by nlinarith) (by nlinarith)

end legs

theorem exists_gap {ε : K} {c : Contour K} (hs : c.Simple) (hm : c.Mono ε) {e : Segment K}
    (he : e ∈ c.edgeList) {t₁ t₂ : K} (hlt : t₁ ≤ t₂)
    (l₁ : e.up.start.time ε < t₁) (l₂ : t₂ < e.up.finish.time ε) :
    ∃ δ, 0 < δ ∧ ∀ t, t₁ ≤ t → t ≤ t₂ → ∀ η, η ≠ 0 → |η| ≤ δ →
      col ε t (e.up.height ε t + η) ∉ c.pts := by
  obtain ⟨i, hi⟩ := List.mem_iff_getElem?.mp he
  have hn : ∀ e ∈ c.edgeList, e.Nondegenerate := fun e he => hs.nondegenerate he
  have hte : e.up.start.time ε < e.up.finish.time ε := l₁.trans (hlt.trans_lt l₂)
  obtain ⟨o, hperm, ho⟩ := exists_perm_one hi
  have hom : ∀ k ∈ o, k ∈ c.edgeList := fun k hk => hperm.mem_iff.mpr (List.mem_cons_of_mem _ hk)
  obtain ⟨δ, hδ, hgap⟩ := exists_common_gap (ε := ε) e.up (t₁ := t₁) (t₂ := t₂) (o.map Segment.up) (by
    intro u hu t k1 k2 k3 k4 heq
    obtain ⟨k, hk, rfl⟩ := List.mem_map.mp hu
    obtain ⟨m, hmi, hmk⟩ := ho k hk
    have htk := hm.times (hom k hk) (hn k (hom k hk))
    have p1 := pointAt_mem hte (l₁.le.trans k1) (k2.trans l₂.le)
    have p2 : e.up.pointAt ε t ∈ k.up.pts := by
      rw [mem_pts_iff_height htk, pointAt_time]
      exact ⟨k3, k4, heq⟩
    rw [Segment.pts_up] at p1 p2
    have := (hs.meet_getElem hi hmk hmi.symm p1 p2).1
    rcases Segment.up_endpoint.mpr this with h | h
    · have := pointAt_time (ε := ε) e.up t
      rw [h] at this
      exact absurd (l₁.trans_le k1) this.not_lt
    · have := pointAt_time (ε := ε) e.up t
      rw [h] at this
      exact absurd (k2.trans_lt l₂) this.not_gt)
  refine ⟨δ, hδ, fun t k1 k2 η hη hle => ?_⟩
  rintro ⟨k, hk, hzk⟩
  rcases List.mem_cons.mp (hperm.mem_iff.mp hk) with rfl | hk'
  · rw [← Segment.pts_up, mem_pts_iff_height hte, col_time] at hzk
    have := hzk.2.2
    unfold col at this
    exact hη (by simpa using this)
  · have htk := hm.times hk (hn k hk)
    rw [← Segment.pts_up, mem_pts_iff_height htk, col_time] at hzk
    have := hgap _ (List.mem_map.mpr ⟨k, hk', rfl⟩) _ k1 k2 hzk.1 hzk.2.1
    rw [← hzk.2.2] at this
    unfold col at this
    have e' : e.up.height ε t - (e.up.height ε t + η) = -η := by ring
    simp only [e', abs_neg] at this
    exact absurd hle (not_le.mpr this)

/-- A sign. -/
def Sign (σ : K) : Prop := σ = 1 ∨ σ = -1

theorem Sign.sq {σ : K} (h : Sign σ) : σ * σ = 1 := by rcases h with rfl | rfl <;> ring

theorem Sign.abs {σ : K} (h : Sign σ) : |σ| = 1 := by rcases h with rfl | rfl <;> simp

theorem Sign.ne {σ : K} (h : Sign σ) : σ ≠ 0 := by rcases h with rfl | rfl <;> simp

theorem Sign.neg {σ : K} (h : Sign σ) : Sign (-σ) := by rcases h with rfl | rfl <;> simp [Sign]

theorem Sign.mul {σ τ : K} (h : Sign σ) (h' : Sign τ) : Sign (σ * τ) := by
  rcases h with rfl | rfl <;> rcases h' with rfl | rfl <;> simp [Sign]

theorem exists_side {ε : K} {c : Contour K} (hs : c.Simple) (hm : c.Mono ε) {e : Segment K}
    (he : e ∈ c.edgeList) {t σ : K} (hl : e.up.Live ε t) (hσ : Sign σ) :
    ∃ p, Side ε c.pts e.up t σ p := by
  obtain ⟨δ, hδ, h⟩ := exists_gap hs hm he le_rfl hl.1 hl.2
  refine ⟨_, hl, δ, hδ, rfl, fun δ' h1 h2 => h t le_rfl le_rfl _ (mul_ne_zero hσ.ne h1.ne') ?_⟩
  rw [abs_mul, hσ.abs, one_mul, abs_of_pos h1]
  exact h2

theorem Side.steady {ε : K} {c : Contour K} (hs : c.Simple) (hm : c.Mono ε) {e : Segment K}
    (he : e ∈ c.edgeList) {t t' σ : K} (hσ : Sign σ) {p q : Point K}
    (hp : Side ε c.pts e.up t σ p) (hq : Side ε c.pts e.up t' σ q) : Joined c.pts p q := by
  wlog h : t ≤ t' generalizing t t' p q
  · exact (this hq hp (le_of_not_ge h)).symm
  obtain ⟨δ, hδ, hg⟩ := exists_gap hs hm he h hp.1.1 hq.1.2
  have away : ∀ τ, t ≤ τ → τ ≤ t' → ∀ δ', 0 < δ' → δ' ≤ δ →
      col ε τ (e.up.height ε τ + σ * δ') ∉ c.pts := by
    intro τ k1 k2 δ' h1 h2
    refine hg τ k1 k2 _ (mul_ne_zero hσ.ne h1.ne') ?_
    rw [abs_mul, hσ.abs, one_mul, abs_of_pos h1]
    exact h2
  have s1 : Side ε c.pts e.up t σ (col ε t (e.up.height ε t + σ * δ)) :=
    ⟨hp.1, δ, hδ, rfl, away t le_rfl h⟩
  have s2 : Side ε c.pts e.up t' σ (col ε t' (e.up.height ε t' + σ * δ)) :=
    ⟨hq.1, δ, hδ, rfl, away t' h le_rfl⟩
  refine ((hp.joined s1).trans (joined_leg fun r r0 r1 => ?_)).trans (s2.joined hq)
  have e2 : e.up.height ε t + σ * δ + r * (e.up.height ε t' + σ * δ - (e.up.height ε t + σ * δ))
      = e.up.height ε (t + r * (t' - t)) + σ * δ := by
    rw [height_between]; ring
  rw [e2]
  exact away _ (by nlinarith) (by nlinarith) δ hδ le_rfl

/-! ### around a vertex -/

theorem exists_box {ε : K} (v : Point K) (l : List (Segment K))
    (hl : ∀ u ∈ l, u.start.time ε < u.finish.time ε) (hv : ∀ u ∈ l, v ∉ u.pts) :
    ∃ ρ η, 0 < ρ ∧ 0 < η ∧ ∀ u ∈ l, ∀ z ∈ u.pts, |z.time ε - v.time ε| ≤ ρ → η < |z.y - v.y| := by
  induction l with
  | nil => exact ⟨1, 1, one_pos, one_pos, by simp⟩
  | cons u l ih =>
    obtain ⟨ρ, η, h1, h2, h3⟩ := ih (fun w hw => hl w (List.mem_cons_of_mem _ hw))
      fun w hw => hv w (List.mem_cons_of_mem _ hw)
    have hu := hl u (List.mem_cons_self ..)
    have hvu := hv u (List.mem_cons_self ..)
    have one : ∃ ρ η, 0 < ρ ∧ 0 < η ∧
        ∀ z ∈ u.pts, |z.time ε - v.time ε| ≤ ρ → η < |z.y - v.y| := by
      rcases lt_or_ge (v.time ε) (u.start.time ε) with h | h
      · refine ⟨(u.start.time ε - v.time ε) / 2, 1, by linarith, one_pos, fun z hz ha => ?_⟩
        have := ((mem_pts_iff_height hu z).mp hz).1
        have := (abs_le.mp ha).2
        linarith
      rcases lt_or_ge (u.finish.time ε) (v.time ε) with h' | h'
      · refine ⟨(v.time ε - u.finish.time ε) / 2, 1, by linarith, one_pos, fun z hz ha => ?_⟩
        have := ((mem_pts_iff_height hu z).mp hz).2.1
        have := (abs_le.mp ha).1
        linarith
      have hne : u.height ε (v.time ε) - v.y ≠ 0 := by
        intro e
        exact hvu ((mem_pts_iff_height hu v).mpr ⟨h, h', by linarith⟩)
      have hg := abs_pos.mpr hne
      have hs : (0:K) < |u.slope ε| + 1 := by positivity
      refine ⟨|u.height ε (v.time ε) - v.y| / (4 * (|u.slope ε| + 1)),
        |u.height ε (v.time ε) - v.y| / 2, by positivity, by positivity, fun z hz ha => ?_⟩
      have hy := ((mem_pts_iff_height hu z).mp hz).2.2
      rw [height_eq u _ (v.time ε)] at hy
      have h4 : |u.slope ε * (z.time ε - v.time ε)| ≤ |u.height ε (v.time ε) - v.y| / 4 := by
        rw [abs_mul]
        calc |u.slope ε| * |z.time ε - v.time ε|
            ≤ (|u.slope ε| + 1) * (|u.height ε (v.time ε) - v.y| / (4 * (|u.slope ε| + 1))) :=
              mul_le_mul (by linarith) ha (abs_nonneg _) hs.le
          _ = |u.height ε (v.time ε) - v.y| / 4 := by field_simp
      have h5 : |u.height ε (v.time ε) - v.y| ≤ |z.y - v.y| + |u.slope ε * (z.time ε - v.time ε)| := by
        have : u.height ε (v.time ε) - v.y = (z.y - v.y) - u.slope ε * (z.time ε - v.time ε) := by
          rw [hy]; ring
        rw [this]
        exact abs_sub _ _
      linarith
    obtain ⟨ρ', η', h1', h2', h3'⟩ := one
    refine ⟨min ρ ρ', min η η', lt_min h1 h1', lt_min h2 h2', fun w hw z hz ha => ?_⟩
    rcases List.mem_cons.mp hw with rfl | hw
    · exact (min_le_right _ _).trans_lt (h3' z hz (ha.trans (min_le_right _ _)))
    · exact (min_le_left _ _).trans_lt (h3 w hw z hz (ha.trans (min_le_left _ _)))

/-- The segment ends in the point. -/
structure Prong (ε : K) (v : Point K) (e : Segment K) (s ρ η : K) : Prop where
  sign : Sign s
  times : e.start.time ε < e.finish.time ε
  live : e.Live ε (v.time ε + s * ρ)
  at_ : e.height ε (v.time ε) = v.y
  flat : |e.slope ε| * ρ ≤ η / 2
  only : ∀ z ∈ e.pts, |z.time ε - v.time ε| ≤ ρ → 0 ≤ s * (z.time ε - v.time ε)

/-- The segments are the only parts of the set near the point. -/
structure Nook (ε : K) (S : Set (Point K)) (v : Point K) (e f : Segment K) (s s' ρ η : K) : Prop where
  pos : 0 < ρ
  high : 0 < η
  left : Prong ε v e s ρ η
  right : Prong ε v f s' ρ η
  box : ∀ z ∈ S, |z.time ε - v.time ε| ≤ ρ → |z.y - v.y| ≤ η → z ∈ e.pts ∨ z ∈ f.pts
  pair : ∀ z ∈ e.pts, z ∈ f.pts → z = v

section nook

variable {ε : K} {S : Set (Point K)} {v : Point K} {e f : Segment K} {s s' ρ η σ : K}

theorem Nook.swap (N : Nook ε S v e f s s' ρ η) : Nook ε S v f e s' s ρ η :=
  ⟨N.pos, N.high, N.right, N.left, fun z h1 h2 h3 => (N.box z h1 h2 h3).symm,
    fun z h1 h2 => N.pair z h2 h1⟩

theorem Prong.mem_iff (P : Prong ε v e s ρ η) {z : Point K} (hz : z ∈ e.pts) :
    z.y = v.y + e.slope ε * (z.time ε - v.time ε) := by
  rw [← P.at_, ← height_eq]
  exact ((mem_pts_iff_height P.times z).mp hz).2.2

theorem Prong.bound (P : Prong ε v e s ρ η) {t : K} (ht : |t - v.time ε| ≤ ρ) :
    |e.height ε t - v.y| ≤ η / 2 := by
  rw [height_eq e t (v.time ε), P.at_, add_sub_cancel_left, abs_mul]
  exact (mul_le_mul_of_nonneg_left ht (abs_nonneg _)).trans P.flat

theorem Prong.near (P : Prong ε v e s ρ η) (hρ : 0 < ρ) {r : K} (r0 : 0 ≤ r) (r1 : r ≤ 1) :
    |v.time ε + s * ρ * r - v.time ε| ≤ ρ := by
  rw [add_sub_cancel_left, abs_mul, abs_mul, P.sign.abs, one_mul, abs_of_pos hρ, abs_of_nonneg r0]
  nlinarith

/-- From the side of a segment to the point beside its end. -/
theorem Nook.half (N : Nook ε S v e f s s' ρ η) (ho : s' = -s) (hσ : Sign σ) :
    ∃ p, Side ε S e (v.time ε + s * ρ) σ p ∧
      Joined S p (col ε (v.time ε) (v.y + σ * (η / 2))) := by
  have hρ := N.pos
  have hη := N.high
  have key : ∀ r, 0 ≤ r → r ≤ 1 → ∀ δ, 0 < δ → δ ≤ η / 2 →
      col ε (v.time ε + s * ρ * r) (e.height ε (v.time ε + s * ρ * r) + σ * δ) ∉ S := by
    intro r r0 r1 δ d0 d1 hm
    have hr := N.left.near hρ r0 r1
    have hb := N.left.bound hr
    have hd : |σ * δ| ≤ η / 2 := by rw [abs_mul, hσ.abs, one_mul, abs_of_pos d0]; exact d1
    have hne : σ * δ ≠ 0 := mul_ne_zero hσ.ne d0.ne'
    rcases N.box _ hm (by rwa [col_time]) (by
      change |e.height ε (v.time ε + s * ρ * r) + σ * δ - v.y| ≤ η
      have : e.height ε (v.time ε + s * ρ * r) + σ * δ - v.y
        = (e.height ε (v.time ε + s * ρ * r) - v.y) + σ * δ := by ring
      rw [this]
      exact (abs_add_le _ _).trans (by linarith)) with h | h
    · have := ((mem_pts_iff_height N.left.times _).mp h).2.2
      rw [col_time] at this
      change _ + _ = _ at this
      exact hne (by linarith)
    · have h0 := N.right.only _ h (by rwa [col_time])
      rw [col_time, add_sub_cancel_left, ho] at h0
      have h1 : -s * (s * ρ * r) = -(ρ * r) := by
        have := N.left.sign.sq
        linear_combination -(ρ * r) * this
      rw [h1] at h0
      have h2 : r = 0 := by
        have : ρ * r ≤ 0 := by linarith
        nlinarith [mul_nonneg hρ.le r0]
      have := N.right.mem_iff h
      rw [h2, mul_zero, add_zero, col_time, sub_self, mul_zero, add_zero, N.left.at_] at this
      change _ + _ = _ at this
      exact hne (by linarith)
  refine ⟨col ε (v.time ε + s * ρ) (e.height ε (v.time ε + s * ρ) + σ * (η / 2)),
    ⟨N.left.live, η / 2, by linarith, rfl, fun δ d0 d1 => ?_⟩, joined_leg fun r r0 r1 => ?_⟩
  · have := key 1 zero_le_one le_rfl δ d0 d1
    rwa [mul_one] at this
  · have := key (1 - r) (by linarith) (by linarith) (η / 2) (by linarith) le_rfl
    have e1 : v.time ε + s * ρ * (1 - r) = v.time ε + s * ρ + r * (v.time ε - (v.time ε + s * ρ)) := by
      ring
    rw [e1, height_between, N.left.at_] at this
    have e2 : e.height ε (v.time ε + s * ρ) + σ * (η / 2)
        + r * (v.y + σ * (η / 2) - (e.height ε (v.time ε + s * ρ) + σ * (η / 2)))
        = e.height ε (v.time ε + s * ρ) + r * (v.y - e.height ε (v.time ε + s * ρ)) + σ * (η / 2) := by
      ring
    rwa [e2]

theorem Nook.through (N : Nook ε S v e f s s' ρ η) (ho : s' = -s) (hσ : Sign σ) :
    ∃ p q, Side ε S e (v.time ε + s * ρ) σ p ∧ Side ε S f (v.time ε + s' * ρ) σ q ∧ Joined S p q := by
  obtain ⟨p, h1, h2⟩ := N.half ho hσ
  obtain ⟨q, h3, h4⟩ := N.swap.half (by rw [ho, neg_neg]) hσ
  exact ⟨p, q, h1, h3, h2.trans h4.symm⟩

/-- The point between two segments at the same side of their common end. -/
theorem Nook.inner (N : Nook ε S v e f s s' ρ η) (hσ : Sign σ)
    (hd : 0 < σ * (f.height ε (v.time ε + s * ρ) - e.height ε (v.time ε + s * ρ))) :
    Side ε S e (v.time ε + s * ρ) σ (col ε (v.time ε + s * ρ)
      ((e.height ε (v.time ε + s * ρ) + f.height ε (v.time ε + s * ρ)) / 2)) := by
  have hr : |v.time ε + s * ρ - v.time ε| ≤ ρ := by
    have := N.left.near N.pos zero_le_one le_rfl
    rwa [mul_one] at this
  set t := v.time ε + s * ρ with ht
  set d := σ * (f.height ε t - e.height ε t) with hdd
  have hsq := hσ.sq
  have hf : f.height ε t = e.height ε t + σ * d := by
    rw [hdd]; linear_combination -(f.height ε t - e.height ε t) * hsq
  refine ⟨N.left.live, d / 2, by linarith, ?_, fun δ d0 d1 hm => ?_⟩
  · rw [hf]; congr 1; ring
  have b1 := N.left.bound hr
  have b2 := N.right.bound hr
  have hη := N.high
  rcases N.box _ hm (by rwa [col_time]) (by
    change |e.height ε t + σ * δ - v.y| ≤ η
    rw [abs_le] at b1 b2 ⊢
    rcases hσ with h | h <;> rw [h] at hf ⊢ <;> constructor <;> linarith) with h | h
  · have := ((mem_pts_iff_height N.left.times _).mp h).2.2
    rw [col_time] at this
    change _ + _ = _ at this
    exact mul_ne_zero hσ.ne d0.ne' (by linarith)
  · have := ((mem_pts_iff_height N.right.times _).mp h).2.2
    rw [col_time, hf] at this
    change _ + _ = _ at this
    have := mul_left_cancel₀ hσ.ne (add_left_cancel this)
    linarith

/-- The point beyond a segment at the same side of the common end as the other one. -/
theorem Nook.outer (N : Nook ε S v e f s s' ρ η) (hσ : Sign σ)
    (hd : σ * (f.height ε (v.time ε + s * ρ) - e.height ε (v.time ε + s * ρ)) < 0) :
    Side ε S e (v.time ε + s * ρ) σ (col ε (v.time ε + s * ρ) (v.y + σ * η)) := by
  have hr : |v.time ε + s * ρ - v.time ε| ≤ ρ := by
    have := N.left.near N.pos zero_le_one le_rfl
    rwa [mul_one] at this
  set t := v.time ε + s * ρ with ht
  have hsq := hσ.sq
  have b1 := N.left.bound hr
  have hη := N.high
  have hb : |σ * (v.y - e.height ε t)| ≤ η / 2 := by
    rw [abs_mul, hσ.abs, one_mul, abs_sub_comm]; exact b1
  refine ⟨N.left.live, η + σ * (v.y - e.height ε t), ?_, ?_, fun δ d0 d1 hm => ?_⟩
  · have := (abs_le.mp hb).1
    linarith
  · congr 1
    linear_combination -(v.y - e.height ε t) * hsq
  rcases N.box _ hm (by rwa [col_time]) (by
    change |e.height ε t + σ * δ - v.y| ≤ η
    rw [abs_le] at b1 ⊢
    rcases hσ with h | h <;> rw [h] at d1 ⊢ <;> constructor <;> linarith) with h | h
  · have := ((mem_pts_iff_height N.left.times _).mp h).2.2
    rw [col_time] at this
    change _ + _ = _ at this
    exact mul_ne_zero hσ.ne d0.ne' (by linarith)
  · have := ((mem_pts_iff_height N.right.times _).mp h).2.2
    rw [col_time] at this
    change _ + _ = _ at this
    have h1 : f.height ε t - e.height ε t = σ * δ := by linarith
    rw [h1, ← mul_assoc, hsq, one_mul] at hd
    exact absurd hd d0.not_gt

theorem Nook.high_leg (N : Nook ε S v e f s s' ρ η) (hσ : Sign σ) :
    Joined S (col ε (v.time ε + s * ρ) (v.y + σ * η)) (col ε (v.time ε - s * ρ) (v.y + σ * η)) := by
  have hη := N.high
  refine joined_leg fun r r0 r1 hm => ?_
  have hr : |v.time ε + s * ρ + r * (v.time ε - s * ρ - (v.time ε + s * ρ)) - v.time ε| ≤ ρ := by
    have : v.time ε + s * ρ + r * (v.time ε - s * ρ - (v.time ε + s * ρ)) - v.time ε
      = s * ρ * (1 - 2 * r) := by ring
    rw [this, abs_mul, abs_mul, N.left.sign.abs, one_mul, abs_of_pos N.pos]
    have : |1 - 2 * r| ≤ 1 := abs_le.mpr ⟨by linarith, by linarith⟩
    nlinarith [N.pos]
  have e2 : v.y + σ * η + r * (v.y + σ * η - (v.y + σ * η)) = v.y + σ * η := by ring
  rw [e2] at hm
  have hy : |v.y + σ * η - v.y| = η := by
    rw [add_sub_cancel_left, abs_mul, hσ.abs, one_mul, abs_of_pos hη]
  have out : ∀ g : Segment K, g.start.time ε < g.finish.time ε → (∀ t, |t - v.time ε| ≤ ρ →
      |g.height ε t - v.y| ≤ η / 2) → col ε (v.time ε + s * ρ + r *
        (v.time ε - s * ρ - (v.time ε + s * ρ))) (v.y + σ * η) ∉ g.pts := by
    intro g hg hb h
    have h1 := ((mem_pts_iff_height hg _).mp h).2.2
    rw [col_time] at h1
    change _ + _ = _ at h1
    have := hb _ hr
    rw [← h1, hy] at this
    linarith
  rcases N.box _ hm (by rwa [col_time]) hy.le with h | h
  · exact out e N.left.times (fun t => N.left.bound) h
  · exact out f N.right.times (fun t => N.right.bound) h

theorem Nook.back_leg (N : Nook ε S v e f s s' ρ η) (ho : s' = s) (hσ : Sign σ) :
    Joined S (col ε (v.time ε - s * ρ) (v.y + σ * η)) (col ε (v.time ε - s * ρ) (v.y - σ * η)) := by
  have hη := N.high
  refine joined_leg fun r r0 r1 hm => ?_
  have e1 : v.time ε - s * ρ + r * (v.time ε - s * ρ - (v.time ε - s * ρ)) = v.time ε - s * ρ := by
    ring
  rw [e1] at hm
  have hr : |v.time ε - s * ρ - v.time ε| ≤ ρ := by
    have : v.time ε - s * ρ - v.time ε = -(s * ρ) := by ring
    rw [this, abs_neg, abs_mul, N.left.sign.abs, one_mul, abs_of_pos N.pos]
  have out : ∀ {g : Segment K} {y : K}, Prong ε v g s ρ η → col ε (v.time ε - s * ρ) y ∉ g.pts := by
    intro g y P h
    have := P.only _ h (by rwa [col_time])
    rw [col_time] at this
    have h1 : s * (v.time ε - s * ρ - v.time ε) = -ρ := by
      linear_combination -ρ * P.sign.sq
    rw [h1] at this
    linarith [N.pos]
  rcases N.box _ hm (by rwa [col_time]) (by
    change |v.y + σ * η + r * (v.y - σ * η - (v.y + σ * η)) - v.y| ≤ η
    have : v.y + σ * η + r * (v.y - σ * η - (v.y + σ * η)) - v.y = σ * η * (1 - 2 * r) := by ring
    rw [this, abs_mul, abs_mul, hσ.abs, one_mul, abs_of_pos hη]
    have : |1 - 2 * r| ≤ 1 := abs_le.mpr ⟨by linarith, by linarith⟩
    nlinarith) with h | h
  · exact out N.left h
  · exact out (ho ▸ N.right) h

theorem Nook.around (N : Nook ε S v e f s s' ρ η) (ho : s' = s) (hσ : Sign σ) :
    ∃ p q, Side ε S e (v.time ε + s * ρ) σ p ∧ Side ε S f (v.time ε + s' * ρ) (-σ) q ∧
      Joined S p q := by
  subst ho
  rcases lt_trichotomy (σ * (f.height ε (v.time ε + s' * ρ) - e.height ε (v.time ε + s' * ρ))) 0 with
    h | h | h
  · refine ⟨_, _, N.outer hσ h, N.swap.outer hσ.neg (by linarith), ?_⟩
    refine (N.high_leg hσ).trans ((N.back_leg rfl hσ).trans ?_)
    have := (N.high_leg hσ.neg).symm
    rw [neg_mul, ← sub_eq_add_neg] at this
    rwa [neg_mul, ← sub_eq_add_neg]
  · exfalso
    have h0 := (mul_eq_zero.mp h).resolve_left hσ.ne
    have m1 := pointAt_mem N.left.times N.left.live.1.le N.left.live.2.le
    have m2 := pointAt_mem N.right.times N.right.live.1.le N.right.live.2.le
    have : f.pointAt ε (v.time ε + s' * ρ) = e.pointAt ε (v.time ε + s' * ρ) := by
      unfold pointAt
      rw [sub_eq_zero.mp h0]
    rw [this] at m2
    have h1 := N.pair _ m1 m2
    have h2 := congrArg (fun p => p.time ε) h1
    simp only [pointAt_time] at h2
    exact mul_ne_zero N.left.sign.ne N.pos.ne' (by linarith)
  · have i1 := N.inner hσ h
    have i2 := N.swap.inner hσ.neg (by linarith)
    rw [add_comm (f.height ε _)] at i2
    exact ⟨_, _, i1, i2, .refl⟩

end nook

/-! ### along the contour -/

/-- The direction of an edge. -/
def Segment.dir (e : Segment K) : K := if e.start < e.finish then 1 else -1

theorem Segment.dir_sign (e : Segment K) : Sign e.dir := by
  unfold Segment.dir Sign; split_ifs <;> simp

theorem exists_prong {ε : K} {v : Point K} {e : Segment K} (hte : e.start.time ε < e.finish.time ε)
    {t₁ t₂ : K} (b1 : t₁ < v.time ε) (b2 : v.time ε < t₂) (η : K) (hη : 0 < η) :
    ((e.finish = v ∧ e.start.time ε < t₁) → ∃ ρ₀, 0 < ρ₀ ∧ ∀ ρ, 0 < ρ → ρ ≤ ρ₀ →
      Prong ε v e (-1) ρ η) ∧
    ((e.start = v ∧ t₂ < e.finish.time ε) → ∃ ρ₀, 0 < ρ₀ ∧ ∀ ρ, 0 < ρ → ρ ≤ ρ₀ →
      Prong ε v e 1 ρ η) := by
  have hs : (0:K) < |e.slope ε| + 1 := by positivity
  have flat : ∀ ρ, 0 < ρ → ρ ≤ η / (2 * (|e.slope ε| + 1)) → |e.slope ε| * ρ ≤ η / 2 := by
    intro ρ h1 h2
    calc |e.slope ε| * ρ ≤ (|e.slope ε| + 1) * (η / (2 * (|e.slope ε| + 1))) :=
          mul_le_mul (by linarith) h2 h1.le hs.le
      _ = η / 2 := by field_simp
  constructor
  · rintro ⟨rfl, h⟩
    refine ⟨min (e.finish.time ε - t₁) (η / (2 * (|e.slope ε| + 1))),
      lt_min (by linarith) (by positivity), fun ρ h1 h2 => ?_⟩
    have h3 := h2.trans (min_le_left _ _)
    refine ⟨.inr rfl, hte, ⟨by linarith, by linarith⟩, height_finish hte,
      flat ρ h1 (h2.trans (min_le_right _ _)), fun z hz _ => ?_⟩
    have := ((mem_pts_iff_height hte z).mp hz).2.1
    linarith
  · rintro ⟨rfl, h⟩
    refine ⟨min (t₂ - e.start.time ε) (η / (2 * (|e.slope ε| + 1))),
      lt_min (by linarith) (by positivity), fun ρ h1 h2 => ?_⟩
    have h3 := h2.trans (min_le_left _ _)
    refine ⟨.inl rfl, hte, ⟨by linarith, by linarith⟩, height_start e,
      flat ρ h1 (h2.trans (min_le_right _ _)), fun z hz _ => ?_⟩
    have := ((mem_pts_iff_height hte z).mp hz).1
    linarith

theorem exists_nook {ε : K} {c : Contour K} (hs : c.Simple) (hm : c.Mono ε) {i j : Nat}
    (hn : c.Next i j) : ∃ a v b ρ η, c.edgeList[i]? = some ⟨a, v⟩ ∧ c.edgeList[j]? = some ⟨v, b⟩ ∧
      Nook ε c.pts v (⟨a, v⟩ : Segment K).up (⟨v, b⟩ : Segment K).up (-(⟨a, v⟩ : Segment K).dir)
        (⟨v, b⟩ : Segment K).dir ρ η := by
  obtain ⟨a, v, b, o, t₁, t₂, he, hf, M⟩ := exists_meeting hs hm hn
  refine ⟨a, v, b, ?_⟩
  have me := List.mem_of_getElem? he
  have mf := List.mem_of_getElem? hf
  have hav : a ≠ v := hs.nondegenerate me
  have hvb : v ≠ b := hs.nondegenerate mf
  have av := (Contour.edge_vertices me).1
  have vv := (Contour.edge_vertices me).2
  have bv := (Contour.edge_vertices mf).2
  have te := hm.times me (hs.nondegenerate me)
  have tf := hm.times mf (hs.nondegenerate mf)
  have b1 := M.before
  have b2 := M.after
  have half : ∀ w ∈ c.vertices, w ≠ v → (w < v → w.time ε < t₁) ∧ (v < w → t₂ < w.time ε) := by
    intro w hw hne
    have far : w.time ε < t₁ ∨ t₂ < w.time ε := by
      by_contra hn
      push Not at hn
      exact hne (M.only w hw hn.1 hn.2)
    constructor
    · intro h
      have := hm w hw v vv h
      rcases far with h' | h'
      · exact h'
      · linarith
    · intro h
      have := hm v vv w hw h
      rcases far with h' | h'
      · linarith
      · exact h'
  have up1 : ∀ {p q : Point K}, p < q → (⟨p, q⟩ : Segment K).up = ⟨p, q⟩ := by
    intro p q h
    unfold Segment.up State.sorted
    simp [not_lt.mpr h.le]
  have up2 : ∀ {p q : Point K}, q < p → (⟨p, q⟩ : Segment K).up = ⟨q, p⟩ := by
    intro p q h
    unfold Segment.up State.sorted
    simp [h]
  have hom : ∀ k ∈ o, k ∈ c.edgeList := fun k hk => M.perm.mem_iff.mpr (by simp [hk])
  obtain ⟨ρ, η, hρ, hη, hbox⟩ := exists_box (ε := ε) v (o.map Segment.up)
    (by
      intro u hu
      obtain ⟨k, hk, rfl⟩ := List.mem_map.mp hu
      exact hm.times (hom k hk) (hs.nondegenerate (hom k hk)))
    (by
      intro u hu
      obtain ⟨k, hk, rfl⟩ := List.mem_map.mp hu
      rw [Segment.pts_up]
      exact M.off k hk)
  have pe : ∃ ρ₀, 0 < ρ₀ ∧ ∀ ρ, 0 < ρ → ρ ≤ ρ₀ →
      Prong ε v (⟨a, v⟩ : Segment K).up (-(⟨a, v⟩ : Segment K).dir) ρ η := by
    rcases lt_or_gt_of_ne hav with h | h
    · have := (exists_prong te b1 b2 η hη).1 (by rw [up1 h]; exact ⟨rfl, (half a av hav).1 h⟩)
      simpa [Segment.dir, h] using this
    · have := (exists_prong te b1 b2 η hη).2 (by rw [up2 h]; exact ⟨rfl, (half a av hav).2 h⟩)
      simpa [Segment.dir, not_lt.mpr h.le] using this
  have pf : ∃ ρ₀, 0 < ρ₀ ∧ ∀ ρ, 0 < ρ → ρ ≤ ρ₀ →
      Prong ε v (⟨v, b⟩ : Segment K).up (⟨v, b⟩ : Segment K).dir ρ η := by
    rcases lt_or_gt_of_ne hvb with h | h
    · have := (exists_prong tf b1 b2 η hη).2 (by rw [up1 h]; exact ⟨rfl, (half b bv hvb.symm).2 h⟩)
      simpa [Segment.dir, h] using this
    · have := (exists_prong tf b1 b2 η hη).1 (by rw [up2 h]; exact ⟨rfl, (half b bv hvb.symm).1 h⟩)
      simpa [Segment.dir, not_lt.mpr h.le] using this
  obtain ⟨ρ₁, hρ₁, h1⟩ := pe
  obtain ⟨ρ₂, hρ₂, h2⟩ := pf
  have hpos : 0 < min ρ (min ρ₁ ρ₂) := lt_min hρ (lt_min hρ₁ hρ₂)
  refine ⟨min ρ (min ρ₁ ρ₂), η, he, hf, hpos, hη,
    h1 _ hpos ((min_le_right _ _).trans (min_le_left _ _)),
    h2 _ hpos ((min_le_right _ _).trans (min_le_right _ _)), ?_, ?_⟩
  · rintro z ⟨k, hk, hz⟩ ht hy
    rw [Segment.pts_up, Segment.pts_up]
    rcases List.mem_cons.mp (M.perm.mem_iff.mp hk) with rfl | hk
    · exact .inl hz
    rcases List.mem_cons.mp hk with rfl | hk
    · exact .inr hz
    · have := hbox _ (List.mem_map.mpr ⟨k, hk, rfl⟩) z (by rwa [Segment.pts_up])
        (ht.trans (min_le_left _ _))
      exact absurd hy (not_le.mpr this)
  · intro z z1 z2
    rw [Segment.pts_up] at z1 z2
    exact M.pair z z1 z2

theorem Side.next {ε : K} {c : Contour K} (hs : c.Simple) (hm : c.Mono ε) {i j : Nat}
    (hn : c.Next i j) {d : K} (hd : Sign d) : ∃ e f t t' p q, c.edgeList[i]? = some e ∧
      c.edgeList[j]? = some f ∧ Side ε c.pts e.up t (d * e.dir) p ∧
      Side ε c.pts f.up t' (d * f.dir) q ∧ Joined c.pts p q := by
  obtain ⟨a, v, b, ρ, η, he, hf, N⟩ := exists_nook hs hm hn
  have s1 := Segment.dir_sign (⟨a, v⟩ : Segment K)
  have s2 := Segment.dir_sign (⟨v, b⟩ : Segment K)
  by_cases h : (⟨v, b⟩ : Segment K).dir = (⟨a, v⟩ : Segment K).dir
  · obtain ⟨p, q, h1, h2, h3⟩ := N.through (by rw [h, neg_neg]) (hd.mul s1)
    exact ⟨_, _, _, _, p, q, he, hf, h1, by rw [h] at h2 ⊢; exact h2, h3⟩
  · have h' : (⟨v, b⟩ : Segment K).dir = -(⟨a, v⟩ : Segment K).dir := by
      rcases s1 with e1 | e1 <;> rcases s2 with e2 | e2 <;>
        first | exact absurd (e2.trans e1.symm) h | rw [e1, e2, neg_neg] | rw [e1, e2]
    obtain ⟨p, q, h1, h2, h3⟩ := N.around h' (hd.mul s1)
    exact ⟨_, _, _, _, p, q, he, hf, h1, by rw [h'] at h2 ⊢; rw [mul_neg]; exact h2, h3⟩

/-- The point is next to the contour at its left or right side. -/
def Bank (ε : K) (c : Contour K) (d : K) (p : Point K) : Prop :=
  ∃ e ∈ c.edgeList, ∃ t, Side ε c.pts e.up t (d * e.dir) p

theorem Bank.joined {ε : K} {c : Contour K} (hs : c.Simple) (hm : c.Mono ε) {d : K} (hd : Sign d)
    {p q : Point K} (hp : Bank ε c d p) (hq : Bank ε c d q) : Joined c.pts p q := by
  have key : ∀ (i : Nat) (e e₀ : Segment K), c.edgeList[i]? = some e → c.edgeList[0]? = some e₀ →
      ∀ (t t' : K) (p q : Point K), Side ε c.pts e.up t (d * e.dir) p → Side ε c.pts e₀.up t' (d * e₀.dir) q →
        Joined c.pts p q := by
    intro i
    induction i with
    | zero =>
      intro e e₀ he he₀ t t' p q h1 h2
      rw [he] at he₀
      cases he₀
      exact h1.steady hs hm (List.mem_of_getElem? he) (hd.mul e.dir_sign) h2
    | succ i ih =>
      intro e e₀ he he₀ t t' p q h1 h2
      have hlt : i + 1 < c.vertices.length := by
        rw [← Contour.length_edgeList]; exact (List.getElem?_eq_some_iff.mp he).1
      obtain ⟨f, e', τ, τ', p', q', k1, k2, k3, k4, k5⟩ := Side.next hs hm
        (.inl ⟨rfl, hlt⟩ : c.Next i (i + 1)) hd
      rw [he] at k2
      cases k2
      exact ((h1.steady hs hm (List.mem_of_getElem? he) (hd.mul e.dir_sign) k4).trans k5.symm).trans
        (ih f e₀ k1 he₀ τ t' p' q k3 h2)
  obtain ⟨e, he, t, h1⟩ := hp
  obtain ⟨f, hf, t', h2⟩ := hq
  obtain ⟨i, hi⟩ := List.mem_iff_getElem?.mp he
  obtain ⟨j, hj⟩ := List.mem_iff_getElem?.mp hf
  have h0 : 0 < c.edgeList.length := List.length_pos_of_mem he
  obtain ⟨e₀, he₀⟩ : ∃ e₀, c.edgeList[0]? = some e₀ := ⟨_, List.getElem?_eq_getElem h0⟩
  obtain ⟨t₀, l₀, -⟩ := exists_free_live hs hm (List.mem_of_getElem? he₀)
  obtain ⟨x, hx⟩ := exists_side hs hm (List.mem_of_getElem? he₀) l₀ (hd.mul e₀.dir_sign)
  exact (key i e e₀ hi he₀ t t₀ p x h1 hx).trans (key j f e₀ hj he₀ t' t₀ q x h2 hx).symm

/-! ### from any point to the contour -/

theorem exists_above (c : Contour K) : ∃ H : K, ∀ z ∈ c.pts, z.y < H := by
  have : ∀ l : List (Point K), ∃ H : K, ∀ v ∈ l, v.y < H := by
    intro l
    induction l with
    | nil => exact ⟨0, by simp⟩
    | cons v l ih =>
      obtain ⟨H, hH⟩ := ih
      refine ⟨max H (v.y + 1), fun w hw => ?_⟩
      rcases List.mem_cons.mp hw with rfl | hw
      · exact lt_max_of_lt_right (by linarith)
      · exact lt_max_of_lt_left (hH w hw)
  obtain ⟨H, hH⟩ := this c.vertices
  refine ⟨H, ?_⟩
  rintro z ⟨e, he, r, r0, r1, rfl⟩
  have h1 := hH _ (Contour.edge_vertices he).1
  have h2 := hH _ (Contour.edge_vertices he).2
  simp only [lerp]
  rcases le_total e.start.y e.finish.y with h | h <;> nlinarith

theorem live_of_mem {ε : K} {c : Contour K} (hs : c.Simple) (hm : c.Mono ε) {t h : K}
    (hf : Free ε c t) (hz : col ε t h ∈ c.pts) :
    ∃ k ∈ c.edgeList, k.up.Live ε t ∧ k.up.height ε t = h := by
  obtain ⟨k, hk, hz⟩ := hz
  rw [← Segment.pts_up, mem_pts_iff_height (hm.times hk (hs.nondegenerate hk)), col_time] at hz
  exact ⟨k, hk, ⟨lt_of_le_of_ne hz.1 (hf _ (Contour.up_vertices hk).1),
    lt_of_le_of_ne hz.2.1 (hf _ (Contour.up_vertices hk).2).symm⟩, hz.2.2.symm⟩

theorem exists_bank_live {ε : K} {c : Contour K} (hs : c.Simple) (hm : c.Mono ε) {t h : K}
    (hf : Free ε c t) (hz : col ε t h ∉ c.pts) (hl : ∃ k ∈ c.edgeList, k.up.Live ε t) :
    ∃ d, Sign d ∧ Bank ε c d (col ε t h) := by
  classical
  obtain ⟨k, hk, hkl⟩ := hl
  obtain ⟨e, he, hmin⟩ := Finset.exists_min_image
    (c.edgeList.toFinset.filter fun k => k.up.Live ε t) (fun k => |h - k.up.height ε t|)
    ⟨k, by simp [hk, hkl]⟩
  simp only [Finset.mem_filter, List.mem_toFinset] at he hmin
  have hte := hm.times he.1 (hs.nondegenerate he.1)
  have hne : h - e.up.height ε t ≠ 0 := by
    intro h0
    apply hz
    refine ⟨e, he.1, ?_⟩
    rw [← Segment.pts_up, mem_pts_iff_height hte, col_time]
    refine ⟨he.2.1.le, he.2.2.le, ?_⟩
    change h = _
    linarith
  obtain ⟨σ, hσ, hσd⟩ : ∃ σ : K, Sign σ ∧ h - e.up.height ε t = σ * |h - e.up.height ε t| := by
    rcases lt_or_gt_of_ne hne with h0 | h0
    · exact ⟨-1, .inr rfl, by rw [abs_of_neg h0]; ring⟩
    · exact ⟨1, .inl rfl, by rw [abs_of_pos h0]; ring⟩
  have hdd : σ * e.dir * e.dir = σ := by rw [mul_assoc, e.dir_sign.sq, mul_one]
  refine ⟨σ * e.dir, hσ.mul e.dir_sign, e, he.1, t, he.2, |h - e.up.height ε t|, abs_pos.mpr hne, ?_,
    ?_⟩
  · rw [hdd, ← hσd]
    congr 1
    ring
  · rw [hdd]
    intro δ d0 d1 hm'
    obtain ⟨k, hk, hkl, hkh⟩ := live_of_mem hs hm hf hm'
    have := hmin k ⟨hk, hkl⟩
    have e1 : h - k.up.height ε t = σ * (|h - e.up.height ε t| - δ) := by
      rw [hkh]; linear_combination hσd
    rw [e1, abs_mul, hσ.abs, one_mul, abs_of_nonneg (sub_nonneg.mpr d1)] at this
    linarith

theorem exists_bank {ε : K} {c : Contour K} (hs : c.Simple) (hm : c.Mono ε) {p : Point K}
    (hp : p ∉ c.pts) : ∃ d q, Sign d ∧ Bank ε c d q ∧ Joined c.pts p q := by
  have hts : ∀ e ∈ c.edgeList, e.up.start.time ε < e.up.finish.time ε :=
    fun e he => hm.times he (hs.nondegenerate he)
  -- to a time which is not the time of a vertex
  obtain ⟨ρ, η, hρ, hη, hbox⟩ := exists_box (ε := ε) p c.ups
    (by
      intro u hu
      obtain ⟨k, hk, rfl⟩ := List.mem_map.mp hu
      exact hts k hk)
    (by
      intro u hu hpu
      obtain ⟨k, hk, rfl⟩ := List.mem_map.mp hu
      exact hp ⟨k, hk, by rwa [Segment.pts_up] at hpu⟩)
  obtain ⟨t₁, t₂, w1, w2, w3⟩ := exists_window ε (p.time ε) c.vertices
  obtain ⟨t, k1, k2⟩ := exists_between (lt_min w2 (by linarith : p.time ε < p.time ε + ρ))
  have hf : Free ε c t := by
    intro w hw h
    have := w3 w hw (by rw [h]; linarith) (by rw [h]; exact k2.le.trans (min_le_left _ _))
    rw [h] at this
    exact k1.ne' this
  have k3 : t < p.time ε + ρ := k2.trans_le (min_le_right _ _)
  have away : ∀ r, 0 ≤ r → r ≤ 1 → col ε (p.time ε + r * (t - p.time ε)) p.y ∉ c.pts := by
    rintro r r0 r1 ⟨k, hk, hz⟩
    have := hbox _ (List.mem_map.mpr ⟨k, hk, rfl⟩) _ (by rw [Segment.pts_up]; exact hz) (by
      rw [col_time, add_sub_cancel_left, abs_of_nonneg (mul_nonneg r0 (by linarith))]
      nlinarith)
    change η < |p.y - p.y| at this
    rw [sub_self, abs_zero] at this
    linarith
  have j1 : Joined c.pts p (col ε t p.y) := by
    have : Joined c.pts (col ε (p.time ε) p.y) (col ε t p.y) := by
      refine joined_leg fun r r0 r1 => ?_
      have e2 : p.y + r * (p.y - p.y) = p.y := by ring
      rw [e2]
      exact away r r0 r1
    rwa [col_self] at this
  have hz : col ε t p.y ∉ c.pts := by
    have := away 1 zero_le_one le_rfl
    rwa [one_mul, add_sub_cancel] at this
  by_cases hl : ∃ k ∈ c.edgeList, k.up.Live ε t
  · obtain ⟨d, hd, hb⟩ := exists_bank_live hs hm hf hz hl
    exact ⟨d, _, hd, hb, j1⟩
  -- over the top
  obtain ⟨H, hH⟩ := exists_above c
  obtain ⟨e, he⟩ := List.exists_mem_of_ne_nil _ (Contour.edgeList_ne_nil hs.ne_nil)
  obtain ⟨t', l', f'⟩ := exists_free_live hs hm he
  have high : ∀ τ, col ε τ H ∉ c.pts := fun τ hm => lt_irrefl _ (hH _ hm)
  obtain ⟨d, hd, hb⟩ := exists_bank_live hs hm f' (high t') ⟨e, he, l'⟩
  have j2 : Joined c.pts (col ε t p.y) (col ε t H) := by
    refine joined_leg fun r r0 r1 hmem => ?_
    have e1 : t + r * (t - t) = t := by ring
    rw [e1] at hmem
    obtain ⟨k, hk, hkl, -⟩ := live_of_mem hs hm hf hmem
    exact hl ⟨k, hk, hkl⟩
  have j3 : Joined c.pts (col ε t H) (col ε t' H) := by
    refine joined_leg fun r r0 r1 => ?_
    have e2 : H + r * (H - H) = H := by ring
    rw [e2]
    exact high _
  exact ⟨d, _, hd, hb, (j1.trans j2).trans j3⟩

/-! ### the theorem -/

theorem Contour.interior_iff_of_joined {c : Contour K} {p q : Point K} (h : Joined c.pts p q) :
    p ∈ c.interior ↔ q ∈ c.interior := by
  induction h with
  | refl => exact Iff.rfl
  | step _ h2 ih => exact ih.trans (Contour.interior_iff_of_avoids h2)

theorem Contour.exists_mono (c : Contour K) : ∃ ε, c.Mono ε := by
  obtain ⟨ε, h⟩ := exists_inclination c.vertices.toFinset
  exact ⟨ε, fun v hv w hw => h v (List.mem_toFinset.mpr hv) w (List.mem_toFinset.mpr hw)⟩

theorem Contour.Simple.exterior_nonempty {c : Contour K} (hs : c.Simple) : c.exterior.Nonempty := by
  have box := (reference.context_exact.contourBox c hs.ne_nil).interior
  have hn : (⟨((reference.context : Context K).contourBox c).maxX + 1, 0⟩ : Point K)
      ∉ c.interior ∪ c.pts := by
    intro h
    have := box.le_maxX _ h
    simp only at this
    linarith
  rcases Contour.cover (c := c) fun h => hn (.inr h) with h | h
  · exact absurd (.inl h) hn
  · exact ⟨_, h⟩

/-- Points off a simple contour are joined iff they have the same location. -/
theorem Contour.Simple.joined_iff {c : Contour K} (hs : c.Simple) {p q : Point K} (hp : p ∉ c.pts)
    (hq : q ∉ c.pts) : Joined c.pts p q ↔ (p ∈ c.interior ↔ q ∈ c.interior) := by
  refine ⟨Contour.interior_iff_of_joined, fun h => ?_⟩
  obtain ⟨ε, hm⟩ := c.exists_mono
  obtain ⟨x, hx⟩ := hs.interior_nonempty
  obtain ⟨y, hy⟩ := hs.exterior_nonempty
  have hy' : y ∉ c.interior := fun h => Contour.not_both h hy
  obtain ⟨d₁, p', s1, b1, j1⟩ := exists_bank hs hm hp
  obtain ⟨d₂, q', s2, b2, j2⟩ := exists_bank hs hm hq
  obtain ⟨d₃, x', s3, b3, j3⟩ := exists_bank hs hm hx.1
  obtain ⟨d₄, y', s4, b4, j4⟩ := exists_bank hs hm hy.1
  have link : ∀ {d d' : K} {a a' b b' : Point K}, Sign d → Bank ε c d a' → Bank ε c d' b' →
      Joined c.pts a a' → Joined c.pts b b' → d = d' → Joined c.pts a b := by
    rintro d d' a a' b b' hd h1 h2 h3 h4 rfl
    exact (h3.trans (h1.joined hs hm hd h2)).trans h4.symm
  have hne : d₃ ≠ d₄ := fun e =>
    hy' ((Contour.interior_iff_of_joined (link s3 b3 b4 j3 j4 e)).mp hx)
  by_cases h12 : d₁ = d₂
  · exact link s1 b1 b2 j1 j2 h12
  exfalso
  have two : ∀ {a b c : K}, Sign a → Sign b → Sign c → a ≠ b → c = a ∨ c = b := by
    rintro a b c (rfl | rfl) (rfl | rfl) (rfl | rfl) h <;> simp_all
  rcases two s3 s4 s1 hne with e | e
  · have i1 := Contour.interior_iff_of_joined (link s1 b1 b3 j1 j3 e)
    rcases two s3 s4 s2 hne with e' | e'
    · exact h12 (e.trans e'.symm)
    · have i2 := Contour.interior_iff_of_joined (link s2 b2 b4 j2 j4 e')
      exact hy' (i2.mp (h.mp (i1.mpr hx)))
  · have i1 := Contour.interior_iff_of_joined (link s1 b1 b4 j1 j4 e)
    rcases two s3 s4 s2 hne with e' | e'
    · have i2 := Contour.interior_iff_of_joined (link s2 b2 b3 j2 j3 e')
      exact hy' (i1.mp (h.mpr (i2.mpr hx)))
    · exact h12 (e.trans e'.symm)

end Orient
