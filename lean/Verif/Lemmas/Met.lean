import Verif.Lemmas.Widest

/-! The order in which directions are met. -/

set_option linter.unusedSectionVars false

namespace Orient

variable {K : Type} [Field K] [LinearOrder K] [IsStrictOrderedRing K]

theorem SameRay.refl (p a : Point K) : SameRay p a a := ⟨1, one_pos, (lerp_one _ _).symm⟩

theorem SameRay.lt_iff {p a b : Point K} (h : SameRay p a b) : a < p ↔ b < p := by
  obtain ⟨k, hk, rfl⟩ := h
  rw [Point.lt_iff, Point.lt_iff]
  simp only [lerp]
  have e1 : p.x + k * (a.x - p.x) < p.x ↔ a.x < p.x :=
    ⟨fun h => by by_contra hn; nlinarith, fun h => by nlinarith⟩
  have e2 : p.y + k * (a.y - p.y) < p.y ↔ a.y < p.y :=
    ⟨fun h => by by_contra hn; nlinarith, fun h => by nlinarith⟩
  have e3 : p.x + k * (a.x - p.x) = p.x ↔ a.x = p.x := by
    constructor
    · intro h
      have : k * (a.x - p.x) = 0 := by linarith
      rcases mul_eq_zero.mp this with h | h
      · exact absurd h hk.ne'
      · linarith
    · rintro h; rw [h]; ring
  rw [e1, e2, e3]

theorem SameRay.gt_iff {p a b : Point K} (h : SameRay p a b) : p < a ↔ p < b := by
  have key : ∀ {a b : Point K}, SameRay p a b → p < a → p < b := by
    intro a b h hlt
    have h1 := h.lt_iff
    rcases lt_trichotomy b p with h2 | h2 | h2
    · exact absurd (h1.mpr h2) hlt.asymm
    · exfalso
      obtain ⟨k, hk, e⟩ := h.symm
      rw [h2] at e
      rw [e] at hlt
      have : lerp p p k = p := Point.ext (by simp [lerp]) (by simp [lerp])
      rw [this] at hlt
      exact lt_irrefl _ hlt
    · exact h2
  exact ⟨key h, key h.symm⟩

theorem SweptBefore.congr {p a b a' b' : Point K} (h : SweptBefore p a b) (ha : SameRay p a a')
    (hb : SameRay p b b') : SweptBefore p a' b' := by
  unfold SweptBefore at *
  rw [← ha.lt_iff, ← hb.lt_iff, ← ha.gt_iff, ← hb.gt_iff]
  obtain ⟨k, hk, rfl⟩ := ha
  obtain ⟨m, hm, rfl⟩ := hb
  rw [cross_lerp_left, cross_lerp_right]
  rcases h with h | ⟨h1, h2, h3⟩ | ⟨h1, h2, h3⟩
  · exact .inl h
  · exact .inr (.inl ⟨h1, h2, mul_neg_of_pos_of_neg hk (mul_neg_of_pos_of_neg hm h3)⟩)
  · exact .inr (.inr ⟨h1, h2, mul_pos hk (mul_pos hm h3)⟩)

theorem SweptBefore.asymm {p a b : Point K} (h : SweptBefore p a b) : ¬ SweptBefore p b a := by
  unfold SweptBefore at *
  rw [cross_swap p a b]
  rintro (⟨k1, k2⟩ | ⟨k1, k2, k3⟩ | ⟨k1, k2, k3⟩) <;>
    rcases h with ⟨h1, h2⟩ | ⟨h1, h2, h3⟩ | ⟨h1, h2, h3⟩ <;>
    first
      | exact absurd h1 k1.asymm
      | exact absurd h1 k2.asymm
      | exact absurd h2 k1.asymm
      | linarith

theorem cross_trans {p a b c : Point K} (ha : p < a) (hb : p < b) (hc : p < c) (h1 : 0 < cross p a b)
    (h2 : 0 < cross p b c) : 0 < cross p a c := by
  rw [Point.lt_iff] at ha hb hc
  unfold cross at *
  set ux := a.x - p.x with hux
  set uy := a.y - p.y with huy
  set vx := b.x - p.x with hvx
  set vy := b.y - p.y with hvy
  set wx := c.x - p.x with hwx
  set wy := c.y - p.y with hwy
  have ha : 0 < ux ∨ (ux = 0 ∧ 0 < uy) := by
    rcases ha with h | h
    · exact .inl (by linarith)
    · exact .inr ⟨by linarith [h.1], by linarith [h.2]⟩
  have hb : 0 < vx ∨ (vx = 0 ∧ 0 < vy) := by
    rcases hb with h | h
    · exact .inl (by linarith)
    · exact .inr ⟨by linarith [h.1], by linarith [h.2]⟩
  have hc : 0 < wx ∨ (wx = 0 ∧ 0 < wy) := by
    rcases hc with h | h
    · exact .inl (by linarith)
    · exact .inr ⟨by linarith [h.1], by linarith [h.2]⟩
  rcases hb with hb | ⟨hb, hb'⟩
  · have e : (ux * wy - uy * wx) * vx = (vx * wy - vy * wx) * ux + (ux * vy - uy * vx) * wx := by ring
    have hu0 : 0 ≤ ux := ha.elim le_of_lt fun h => h.1.ge
    have hw0 : 0 ≤ wx := hc.elim le_of_lt fun h => h.1.ge
    have hpos : 0 < (vx * wy - vy * wx) * ux + (ux * vy - uy * vx) * wx := by
      rcases ha with ha | ⟨ha, ha'⟩
      · have := mul_pos h2 ha
        have := mul_nonneg h1.le hw0
        linarith
      · exfalso
        rw [ha] at h1
        nlinarith
    by_contra hn
    push Not at hn
    nlinarith [mul_nonneg (sub_nonneg.mpr hn) hb.le]
  · exfalso
    rw [hb] at h2
    rcases hc with hc | ⟨hc, hc'⟩ <;> nlinarith

theorem SweptBefore.trans {p a b c : Point K} (h : SweptBefore p a b) (h' : SweptBefore p b c) :
    SweptBefore p a c := by
  unfold SweptBefore at *
  rcases h with ⟨h1, h2⟩ | ⟨h1, h2, h3⟩ | ⟨h1, h2, h3⟩ <;>
    rcases h' with ⟨k1, k2⟩ | ⟨k1, k2, k3⟩ | ⟨k1, k2, k3⟩
  · exact absurd h2 k1.asymm
  · exact absurd h2 k1.asymm
  · exact .inl ⟨h1, k2⟩
  · exact .inl ⟨h1, k2⟩
  · refine .inr (.inl ⟨h1, k2, ?_⟩)
    -- reflect at the point
    let r : Point K → Point K := fun x => lerp p x (-1)
    have hr : ∀ {x : Point K}, x < p → p < r x := by
      intro x hx
      rw [Point.lt_iff] at hx ⊢
      simp only [r, lerp]
      rcases hx with h | ⟨h, h'⟩
      · exact .inl (by linarith)
      · exact .inr ⟨by rw [h]; ring, by linarith⟩
    have hcr : ∀ x y : Point K, cross p (r x) (r y) = cross p x y := by
      intro x y; simp only [r]; rw [cross_lerp_left, cross_lerp_right]; ring
    have := cross_trans (hr k2) (hr k1) (hr h1) (by rw [hcr, cross_swap p b c]; linarith)
      (by rw [hcr, cross_swap p a b]; linarith)
    rw [hcr, cross_swap p a c] at this
    linarith
  · exact absurd h2 k1.asymm
  · exact absurd h2 k1.asymm
  · exact absurd h2 k1.asymm
  · exact .inr (.inr ⟨h1, k2, cross_trans h1 h2 k2 h3 k3⟩)

theorem sameRay_of_cross {p a b : Point K} (ha : a ≠ p) (hb : b ≠ p) (hc : cross p a b = 0)
    (hs : a < p ↔ b < p) : SameRay p a b := by
  by_contra hn
  obtain ⟨k, hk, rfl⟩ := opposite_of_cross ha hb hc hn
  have flip : ∀ x : Point K, x < p → p < lerp p x (-k) := by
    intro x hx
    rw [Point.lt_iff] at hx ⊢
    simp only [lerp]
    rcases hx with h | ⟨h, h'⟩
    · exact .inl (by nlinarith)
    · exact .inr ⟨by rw [h]; ring, by nlinarith⟩
  rcases lt_or_gt_of_ne ha with h | h
  · exact absurd (hs.mp h) (flip a h).asymm
  · rcases lt_or_gt_of_ne hb with h' | h'
    · exact absurd (hs.mpr h') h.asymm
    · rw [Point.lt_iff] at h h'
      simp only [lerp] at h'
      rcases h with h | ⟨h, h2⟩ <;> rcases h' with h' | ⟨h', h3⟩
      · nlinarith
      · nlinarith
      · rw [h] at h'; simp at h'
      · nlinarith

theorem sweptBefore_or {p a b : Point K} (ha : a ≠ p) (hb : b ≠ p) (hn : ¬ SameRay p a b) :
    SweptBefore p a b ∨ SweptBefore p b a := by
  unfold SweptBefore
  rw [cross_swap p a b]
  rcases lt_or_gt_of_ne ha with h | h <;> rcases lt_or_gt_of_ne hb with h' | h'
  · have : cross p a b ≠ 0 := fun e => hn (sameRay_of_cross ha hb e ⟨fun _ => h', fun _ => h⟩)
    rcases lt_or_gt_of_ne this with k | k
    · exact .inl (.inr (.inl ⟨h, h', k⟩))
    · exact .inr (.inr (.inl ⟨h', h, by linarith⟩))
  · exact .inl (.inl ⟨h, h'⟩)
  · exact .inr (.inl ⟨h', h⟩)
  · have : cross p a b ≠ 0 := fun e => hn (sameRay_of_cross ha hb e
      ⟨fun k => absurd h k.asymm, fun k => absurd h' k.asymm⟩)
    rcases lt_or_gt_of_ne this with k | k
    · exact .inr (.inr (.inr ⟨h', h, by linarith⟩))
    · exact .inl (.inr (.inr ⟨h, h', k⟩))

/-! ### the exception -/

theorem Begins.congr {l : List (Segment K)} {p a b : Point K} (h : Begins l p a) (hr : SameRay p a b) :
    Begins l p b := by
  obtain ⟨w, hw, h1, x, hx, hne, h2⟩ := h
  exact ⟨w, hw, h1, x, hx, hne, h2.trans hr⟩

theorem Begins.lt {l : List (Segment K)} {p a : Point K} (h : Begins l p a) : p < a := by
  obtain ⟨w, hw, h1, x, hx, hne, h2⟩ := h
  exact h2.gt_iff.mp (lt_of_le_of_ne (h1.2 hx) hne.symm)

theorem Jumps.congr {l : List (Segment K)} {p a b : Point K} (h : Jumps l p a) (hr : SameRay p a b) :
    Jumps l p b :=
  ⟨h.1, h.2.1.congr hr, fun c hc hs => h.2.2 c hc (hs.congr (.refl _ _) hr.symm)⟩

/-- At most one direction is the exception. -/
theorem Jumps.unique {l : List (Segment K)} {p a b : Point K} (h : Jumps l p a) (h' : Jumps l p b) :
    SameRay p a b := by
  by_contra hn
  rcases sweptBefore_or h.2.1.lt.ne' h'.2.1.lt.ne' hn with k | k
  · exact h'.2.2 a h.2.1 k
  · exact h.2.2 b h'.2.1 k

theorem MetBefore.congr {l : List (Segment K)} {p a b a' b' : Point K} (h : MetBefore l p a b)
    (ha : SameRay p a a') (hb : SameRay p b b') : MetBefore l p a' b' :=
  ⟨fun hj => h.1 (hj.congr hb.symm), h.2.imp (fun hj => hj.congr ha) fun hs => hs.congr ha hb⟩

theorem MetBefore.asymm {l : List (Segment K)} {p a b : Point K} (h : MetBefore l p a b) :
    ¬ MetBefore l p b a := by
  rintro ⟨k1, k2⟩
  obtain ⟨h1, h2⟩ := h
  exact (h2.resolve_left k1).asymm (k2.resolve_left h1)

theorem signedCosine_congr {p g a g' a' : Point K} {k : K} (hk : 0 < k) (hg : g' = lerp p g k)
    (ha : SameRay p a a') : signedCosine p g' a' = k * k * signedCosine p g a := by
  obtain ⟨m, hm, rfl⟩ := ha
  subst hg
  have e1 : ((lerp p g k).x - p.x) * ((lerp p a m).x - p.x)
      + ((lerp p g k).y - p.y) * ((lerp p a m).y - p.y)
      = k * m * ((g.x - p.x) * (a.x - p.x) + (g.y - p.y) * (a.y - p.y)) := by simp only [lerp]; ring
  have e2 : ((lerp p a m).x - p.x) * ((lerp p a m).x - p.x)
      + ((lerp p a m).y - p.y) * ((lerp p a m).y - p.y)
      = m * m * ((a.x - p.x) * (a.x - p.x) + (a.y - p.y) * (a.y - p.y)) := by simp only [lerp]; ring
  simp only [signedCosine, e1, e2, mul_pos_iff_of_pos_left (mul_pos hk hm)]
  set d := (g.x - p.x) * (a.x - p.x) + (g.y - p.y) * (a.y - p.y) with hd
  have hm0 : m ≠ 0 := hm.ne'
  set N := (a.x - p.x) * (a.x - p.x) + (a.y - p.y) * (a.y - p.y)
  by_cases hN : N = 0
  · rw [hN]; simp
  · field_simp

theorem signedCosine_iff {p g a b g' a' b' : Point K} (hg : SameRay p g g') (ha : SameRay p a a')
    (hb : SameRay p b b') :
    (signedCosine p g a < signedCosine p g b ↔ signedCosine p g' a' < signedCosine p g' b') ∧
    (signedCosine p g a = signedCosine p g b ↔ signedCosine p g' a' = signedCosine p g' b') := by
  obtain ⟨k, hk, e⟩ := hg
  rw [signedCosine_congr hk e ha, signedCosine_congr hk e hb]
  have h2 := mul_pos hk hk
  exact ⟨(mul_lt_mul_iff_right₀ h2).symm, ⟨fun h => by rw [h], fun h => mul_left_cancel₀ h2.ne' h⟩⟩

namespace eventsQueue

open Segment State

section

variable {ε : K} {P : Finset (Point K)} {s₀ s : State K} {o : Nat → Nat} {p : Point K}
  {group : List Ev} {S T : Set (Point K)}

theorem way_of_event (hw : s.WF) (hg : GroupOK s p group) {x : Ev} (hx : x ∈ group) :
    Way (s.operand (s.evFromTest x)) p (s.evEnd x) := by
  obtain ⟨v, e⟩ := hg x hx
  have := pts_of_event hw v
  have hne := evEnd_ne hw v
  rw [e] at this hne
  refine ⟨hne, ?_⟩
  rw [this]
  exact seg_subset_operand s (hw.leftOf_lt v)

/-- What the events tell is what holds of the directions of the operands. -/
theorem wide_iff (c : Clock ε P s) (hg : GroupOK s p group)
    (full : ∀ x, s.Valid x → s.evStart x = p → x ∈ group)
    (past : ∀ i < s.nextLeft, ∀ j < s.nextLeft, ¬ Same ε (s.seg i) (s.seg j) → p ∈ (s.seg i).pts →
      p ∈ (s.seg j).pts → (s.seg i).IsEndpoint p ∧ (s.seg j).IsEndpoint p)
    (hns : ¬ SharesPiece (s.operand true) (s.operand false)) (st : Star s p group)
    (l : List (Segment K)) :
    WidelyCrossesAt l (s.operand true) (s.operand false) p ↔ Wide (MetBefore l p) s p group := by
  have hw := c.wf
  have same : ∀ {x y : Ev}, x ∈ group → y ∈ group → SameRay p (s.evEnd x) (s.evEnd y) → y = x := by
    intro x y hx hy h
    by_contra hne
    exact st.rays x hx y hy (fun e => hne e.symm) h
  have way : ∀ {x : Ev} {b : Bool}, x ∈ group → s.evFromTest x = b → Way (s.operand b) p (s.evEnd x) := by
    rintro x _ hx rfl
    exact way_of_event hw hg hx
  have event : ∀ {b : Bool} {a : Point K}, p ∈ s.operand (!b) → Way (s.operand b) p a →
      ∃ e ∈ group, s.evFromTest e = b ∧ SameRay p a (s.evEnd e) := by
    intro b a hp ha
    obtain ⟨e, h1, h2, h3, h4⟩ := way_event c past hns ha.1 ha.2 hp
    exact ⟨e, full e h1 h2, h3, h4⟩
  have mem : ∀ {b : Bool} {a : Point K}, Way (s.operand b) p a → p ∈ s.operand b := fun h =>
    h.2 (Segment.start_mem _)
  constructor
  · rintro ⟨d, g, h, x, y, hd, hg', hh, hx, hy, i1, i2⟩
    have pT := mem hd.1
    have pS := mem hx
    obtain ⟨D, D1, D2, D3⟩ := event (b := false) pS hd.1
    obtain ⟨G, G1, G2, G3⟩ := event (b := false) pS hg'.1
    obtain ⟨J, J1, J2, J3⟩ := event (b := false) pS hh.1
    obtain ⟨X, X1, X2, X3⟩ := event (b := true) pT hx
    obtain ⟨Y, Y1, Y2, Y3⟩ := event (b := true) pT hy
    refine ⟨D, D1, G, G1, J, J1, X, X1, Y, Y1, D2, G2, J2, X2, Y2, ?_, ?_, ?_, i1.congr G3 J3 X3,
      i2.congr J3 G3 Y3⟩
    · intro z hz fz
      rcases hd.2 _ (way hz fz) with k | k
      · exact .inl (same D1 hz (D3.symm.trans k))
      · exact .inr (k.congr D3 (.refl _ _))
    · intro z hz fz
      obtain ⟨e1, e2⟩ := signedCosine_iff (p := p) D3 G3 (.refl p (s.evEnd z))
      rw [← e1, ← e2]
      refine (hg'.2 _ (way hz fz)).imp id fun h => ⟨h.1, ?_⟩
      rcases h.2 with k | k
      · exact .inl (same G1 hz (G3.symm.trans k))
      · exact .inr (k.congr G3 (.refl _ _))
    · intro z hz fz
      obtain ⟨e1, e2⟩ := signedCosine_iff (p := p) G3 J3 (.refl p (s.evEnd z))
      rw [← e1, ← e2]
      refine (hh.2 _ (way hz fz)).imp id fun h => ⟨h.1, ?_⟩
      rcases h.2 with k | k
      · exact .inl (same J1 hz (J3.symm.trans k))
      · exact .inr (k.congr J3 (.refl _ _))
  · rintro ⟨D, D1, G, G1, J, J1, X, X1, Y, Y1, D2, G2, J2, X2, Y2, h1, h2, h3, i1, i2⟩
    have pS := mem (way X1 X2)
    refine ⟨s.evEnd D, s.evEnd G, s.evEnd J, s.evEnd X, s.evEnd Y, ⟨way D1 D2, fun b hb => ?_⟩,
      ⟨way G1 G2, fun b hb => ?_⟩, ⟨way J1 J2, fun b hb => ?_⟩, way X1 X2, way Y1 Y2, i1, i2⟩
    · obtain ⟨z, z1, z2, z3⟩ := event (b := false) pS hb
      rcases h1 z z1 z2 with k | k
      · exact .inl (k ▸ z3.symm)
      · exact .inr (k.congr (.refl _ _) z3.symm)
    · obtain ⟨z, z1, z2, z3⟩ := event (b := false) pS hb
      obtain ⟨e1, e2⟩ := signedCosine_iff (p := p) (.refl p (s.evEnd D)) (.refl p (s.evEnd G)) z3
      rw [e1, e2]
      refine (h2 z z1 z2).imp id fun h => ⟨h.1, ?_⟩
      rcases h.2 with k | k
      · exact .inl (k ▸ z3.symm)
      · exact .inr (k.congr (.refl _ _) z3.symm)
    · obtain ⟨z, z1, z2, z3⟩ := event (b := false) pS hb
      obtain ⟨e1, e2⟩ := signedCosine_iff (p := p) (.refl p (s.evEnd G)) (.refl p (s.evEnd J)) z3
      rw [e1, e2]
      refine (h3 z z1 z2).imp id fun h => ⟨h.1, ?_⟩
      rcases h.2 with k | k
      · exact .inl (k ▸ z3.symm)
      · exact .inr (k.congr (.refl _ _) z3.symm)

end

end eventsQueue

end Orient
