import Verif.Lemmas.Passing
import Verif.Lemmas.Contours
import Verif.Lemmas.Angle
import Verif.Lemmas.Ways
import Verif.Lemmas.RegionSegment

/-! Directions which are separated at a point of a contour lead to different sides of it. -/

set_option linter.unusedSectionVars false

namespace Orient

variable {K : Type} [Field K] [LinearOrder K] [IsStrictOrderedRing K]

theorem cross_between (s f u : Point K) (t t' : K) :
    cross (lerp s f t) (lerp s f t') u = (t' - t) * cross s f u := by
  simp only [cross, lerp]; ring

/-- The directions of an angle are different from each other. -/
theorem InAngle.not_sameRay {p a b t : Point K} (h : InAngle p a b t) : ¬ SameRay p a b := by
  rintro ⟨k, hk, rfl⟩
  unfold InAngle at h
  rw [cross_lerp_right, cross_same, mul_zero, if_neg (lt_irrefl _), cross_lerp_right, cross_swap p t a] at h
  nlinarith [h.1, h.2]

theorem InAngle.left_ne {p a b t : Point K} (h : InAngle p a b t) : a ≠ p := by
  rintro rfl
  have e : ∀ x : Point K, cross a a x = 0 := fun x => by simp only [cross]; ring
  unfold InAngle at h
  rw [e, if_neg (lt_irrefl _), e] at h
  exact absurd h.1 (lt_irrefl _)

theorem InAngle.right_ne {p a b t : Point K} (h : InAngle p a b t) : b ≠ p := by
  rintro rfl
  have e : ∀ x : Point K, cross b x b = 0 := fun x => by simp only [cross]; ring
  unfold InAngle at h
  rw [e, if_neg (lt_irrefl _), e] at h
  exact absurd h.2 (lt_irrefl _)

/-- A segment is left in different directions from its inner points only. -/
theorem CrossesAt.inner {s : Segment K} {M : Set (Point K)} {p : Point K} (h : CrossesAt s.pts M p) : s.Inner p := by
  obtain ⟨x, y, u, v, hx, hy, hu, hv, h1, h2⟩ := h
  refine ⟨hx (Segment.start_mem _), fun hend => h1.not_sameRay ?_⟩
  have key : ∀ {o : Point K}, s.pts = (⟨p, o⟩ : Segment K).pts → SameRay p x y := by
    intro o e
    have hx' := e ▸ hx (Segment.finish_mem _)
    have hy' := e ▸ hy (Segment.finish_mem _)
    exact (sameRay_of_mem h1.left_ne hx').symm.trans (sameRay_of_mem h1.right_ne hy')
  rcases hend with rfl | rfl
  · exact key (o := s.finish) rfl
  · exact key (o := s.start) (Segment.pts_reverse s).symm

/-- A segment is crossed if directions of it and of the other set are separated at a point. -/
theorem crossedBy_iff_crossesAt {s : Segment K} {M : Set (Point K)} :
    s.CrossedBy M ↔ ∃ p, CrossesAt s.pts M p := by
  constructor
  · rintro ⟨p, a, b, hp, hn, ha, hb, h1, h2⟩
    refine ⟨p, s.finish, s.start, a, b, Segment.pts_subset hp s.finish_mem, Segment.pts_subset hp s.start_mem,
      ha, hb, ?_, ?_⟩
    all_goals
      obtain ⟨t, t0, t1, rfl⟩ := Segment.inner_param hp hn
      have e1 : ∀ x, cross (lerp s.start s.finish t) s.finish x = (1 - t) * cross s.start s.finish x := fun x => by
        simp only [cross, lerp]; ring
      have e2 : ∀ x, cross (lerp s.start s.finish t) s.start x = - t * cross s.start s.finish x := fun x => by
        simp only [cross, lerp]; ring
      have e3 : ∀ x, cross (lerp s.start s.finish t) x s.start = t * cross s.start s.finish x := fun x => by
        simp only [cross, lerp]; ring
      have e4 : ∀ x, cross (lerp s.start s.finish t) x s.finish = - (1 - t) * cross s.start s.finish x := fun x => by
        simp only [cross, lerp]; ring
      have e5 : cross s.start s.finish s.start = 0 := by simp only [cross]; ring
      have e6 : cross s.start s.finish s.finish = 0 := by simp only [cross]; ring
      unfold InAngle
    · rw [e1, e5, mul_zero, if_neg (lt_irrefl _), e1, e3]
      constructor <;> nlinarith
    · rw [e2, e6, mul_zero, if_neg (lt_irrefl _), e2, e4]
      constructor <;> nlinarith
  · rintro ⟨p, x, y, u, v, hx, hy, hu, hv, h1, h2⟩
    obtain ⟨t, t0, t1, rfl⟩ : p ∈ s.pts := hx (Segment.start_mem _)
    obtain ⟨t', t0', t1', rfl⟩ := hx (Segment.finish_mem _)
    obtain ⟨t'', t0'', t1'', rfl⟩ := hy (Segment.finish_mem _)
    have c0 : ∀ r, cross s.start s.finish (lerp s.start s.finish r) = 0 := fun r => by
      simp only [cross, lerp]; ring
    unfold InAngle at h1 h2
    rw [cross_between, c0, mul_zero, if_neg (lt_irrefl _), cross_between,
      cross_swap _ (lerp s.start s.finish t''), cross_between] at h1
    rw [cross_between, c0, mul_zero, if_neg (lt_irrefl _), cross_between,
      cross_swap _ (lerp s.start s.finish t'), cross_between] at h2
    have hs : s.Nondegenerate := by
      intro e
      have : cross s.start s.finish u = 0 := by rw [e]; simp only [cross]; ring
      rw [this, mul_zero] at h1
      exact absurd h1.1 (lt_irrefl _)
    rcases lt_trichotomy t t' with k | k | k
    · have A : 0 < cross s.start s.finish u := by
        by_contra hn; nlinarith [h1.1, sub_pos.mpr k]
      have k' : t'' < t := by
        by_contra hn; nlinarith [h1.2, sub_nonneg.mpr (not_lt.mp hn)]
      have B : cross s.start s.finish v < 0 := by
        by_contra hn; nlinarith [h2.2, sub_pos.mpr k]
      exact ⟨_, u, v, ⟨t, t0, t1, rfl⟩, not_endpoint_of_param hs (by linarith) (by linarith), hu, hv, A, B⟩
    · rw [k, sub_self, zero_mul] at h1
      exact absurd h1.1 (lt_irrefl _)
    · have A : cross s.start s.finish u < 0 := by
        by_contra hn; nlinarith [h1.1, sub_pos.mpr k]
      have k' : t < t'' := by
        by_contra hn; nlinarith [h1.2, sub_nonneg.mpr (not_lt.mp hn)]
      have B : 0 < cross s.start s.finish v := by
        by_contra hn; nlinarith [h2.2, sub_pos.mpr k]
      exact ⟨_, v, u, ⟨t, t0, t1, rfl⟩, not_endpoint_of_param hs (by linarith) (by linarith), hv, hu, B, A⟩

/-- The two directions of a contour at a point of it, and the sides to which other directions lead. -/
theorem Contour.Simple.directions {c : Contour K} (h : c.Simple) {p : Point K} (hp : p ∈ c.pts) :
    ∃ u v, u ≠ p ∧ v ≠ p ∧ ¬ SameRay p u v ∧ (⟨p, u⟩ : Segment K).pts ⊆ c.pts ∧ (⟨p, v⟩ : Segment K).pts ⊆ c.pts ∧
      ∃ κ : Prop, ∀ x, x ≠ p → Seen c p x → (x ∈ c.interior ↔ (InAngle p u v x ↔ κ)) := by
  obtain ⟨a, v, b, hl, -⟩ := h.leastCorner
  obtain ⟨e, he, hpe⟩ := hp
  by_cases hend : e.IsEndpoint p
  · obtain ⟨x, y, hx, hy⟩ := h.edges_of_endpoint he hend
    have n1 : x ≠ p := h.nondegenerate hx
    have n2 : p ≠ y := h.nondegenerate hy
    have erev : (⟨p, x⟩ : Segment K).pts = (⟨x, p⟩ : Segment K).pts := Segment.pts_reverse ⟨x, p⟩
    have hns : ¬ SameRay p y x := by
      intro k
      have sub : ((⟨p, y⟩ : Segment K).pts ∩ (⟨x, p⟩ : Segment K).pts).Subsingleton :=
        haveI : Std.Symm fun a b : Segment K => (a.pts ∩ b.pts).Subsingleton :=
          ⟨fun u v k => by rwa [Set.inter_comm]⟩
        h.valid.2.forall hy hx fun k => n2 (by cases k; rfl)
      have := k.nontrivial n2.symm
      rw [erev] at this
      exact Set.not_subsingleton_iff.mpr this sub
    refine ⟨y, x, n2.symm, n1, hns, subset_segsPts hy, by rw [erev]; exact subset_segsPts hx, 0 < cross a v b,
      fun z hz hs => ?_⟩
    rw [(h.seen_corner hl hx hy hz.symm hs).1]
    have e1 : cross p z x = cross x p z := cross_rotate ..
    have e2 : cross p y x = cross x p y := cross_rotate ..
    unfold CornerLeft InAngle
    rw [e1, e2]
    rcases lt_trichotomy (cross x p y) 0 with k | k | k
    · rw [if_neg k.not_gt, if_pos k, or_comm]
    · obtain ⟨m, m0, rfl⟩ := opposite_of_cross n2.symm n1 (e2.trans k) hns
      have e3 : cross (lerp p y (-m)) p z = m * cross p y z := by simp only [cross, lerp]; ring
      rw [k, if_neg (lt_irrefl _), if_neg (lt_irrefl _), e3, (pos_far m0).1, or_self, and_self]
    · rw [if_pos k, if_neg k.not_gt, and_comm]
  · obtain ⟨n1, n2, k, hk, ek⟩ := Segment.Inner.opposite ⟨hpe, hend⟩
    obtain ⟨t, t0, t1, ht⟩ := Segment.inner_param hpe hend
    refine ⟨e.finish, e.start, n2, n1, ?_, fun z hz => ⟨e, he, Segment.pts_subset hpe e.finish_mem hz⟩,
      fun z hz => ⟨e, he, Segment.pts_subset hpe e.start_mem hz⟩, 0 < cross a v b, fun z hz hs => ?_⟩
    · rintro ⟨m, m0, k'⟩
      have : e.start = lerp p e.start (m * (-k)) := by
        conv_lhs => rw [k', ek]
        simp only [lerp, Point.mk.injEq]; constructor <;> ring
      have := lerp_injective n1.symm ((lerp_one p e.start).trans this)
      nlinarith
    · have h0 : cross e.start e.finish z ≠ 0 := by
        intro h0
        have hcol : e.Collinear ⟨p, z⟩ := ⟨Segment.cross_eq_zero hpe, h0⟩
        obtain ⟨x, hx, y, hy, hxy⟩ := hcol.nontrivial_of_inner (t := ⟨p, z⟩) (h.nondegenerate he)
          hz.symm ⟨hpe, hend⟩ (Segment.start_mem _)
        by_cases hxp : x = p
        · exact hs y hy.2 (fun k => hxy (hxp.trans k.symm)) ⟨e, he, hy.1⟩
        · exact hs x hx.2 hxp ⟨e, he, hx.1⟩
      rw [h.seen_edge hl he hpe hend hs h0]
      have e1 : cross p e.finish z = (1 - t) * cross e.start e.finish z := by
        rw [ht]; simp only [cross, lerp]; ring
      have e2 : cross p z e.start = t * cross e.start e.finish z := by
        rw [ht]; simp only [cross, lerp]; ring
      have e3 : cross p e.finish e.start = 0 := by
        rw [ht]; simp only [cross, lerp]; ring
      unfold InAngle
      rw [e3, if_neg (lt_irrefl _), e1, e2, (pos_far (sub_pos.mpr t1)).1, (pos_far t0).1, and_self]

/-- Ways along the contour are in one of the two directions. -/
theorem Contour.Simple.way_cases {c : Contour K} (h : c.Simple) {p u v w : Point K} (hu : u ≠ p) (hv : v ≠ p)
    (hw : w ≠ p) (hns : ¬ SameRay p u v) (su : (⟨p, u⟩ : Segment K).pts ⊆ c.pts)
    (sv : (⟨p, v⟩ : Segment K).pts ⊆ c.pts) (sw : (⟨p, w⟩ : Segment K).pts ⊆ c.pts) :
    SameRay p u w ∨ SameRay p v w := by
  have key : ∀ {x y : Point K}, SharesPiece (⟨p, x⟩ : Segment K).pts (⟨p, y⟩ : Segment K).pts → SameRay p x y := by
    rintro x y ⟨s, h0, h1, h2⟩
    exact sameRay_of_nontrivial ⟨_, ⟨h1 s.start_mem, h2 s.start_mem⟩, _, ⟨h1 s.finish_mem, h2 s.finish_mem⟩, h0⟩
  rcases h.atMostTwoWays p u v w hu hv hw su sv sw with k | k | k
  · exact absurd (key k) hns
  · exact .inl (key k)
  · exact .inr (key k)

/-- What is seen from a point of the contour is not in a direction of it. -/
theorem Seen.not_sameRay {c : Contour K} {p u x : Point K} (h : Seen c p x) (hu : u ≠ p)
    (su : (⟨p, u⟩ : Segment K).pts ⊆ c.pts) : ¬ SameRay p u x := by
  intro k
  obtain ⟨y, hy, z, hz, hne⟩ := k.nontrivial hu
  by_cases hyp : y = p
  · exact h z hz.2 (fun k => hne (hyp.trans k.symm)) (su hz.1)
  · exact h y hy.2 hyp (su hy.1)

/-- If directions are not separated by those of the contour, they lead to the same side. -/
theorem Contour.Simple.same_of_not_crossesAt {c : Contour K} (h : c.Simple) {S : Set (Point K)} {p x y : Point K}
    (hp : p ∈ c.pts) (hx : x ≠ p) (hy : y ≠ p) (sx : Seen c p x) (sy : Seen c p y)
    (wx : (⟨p, x⟩ : Segment K).pts ⊆ S) (wy : (⟨p, y⟩ : Segment K).pts ⊆ S) (hn : ¬ CrossesAt S c.pts p) :
    x ∈ c.interior ↔ y ∈ c.interior := by
  obtain ⟨u, v, hu, hv, hns, su, sv, κ, hκ⟩ := h.directions hp
  rw [hκ x hx sx, hκ y hy sy]
  have key : ∀ {x y : Point K}, y ≠ p → Seen c p y → (⟨p, x⟩ : Segment K).pts ⊆ S → (⟨p, y⟩ : Segment K).pts ⊆ S →
      InAngle p u v x → InAngle p u v y := by
    intro x y hy sy wx wy k
    refine (inAngle_or hu hv hy hns (sy.not_sameRay hu su) (sy.not_sameRay hv sv)).resolve_right fun k' => ?_
    exact hn (CrossesAt.symm ⟨u, v, x, y, su, sv, wx, wy, k, k'⟩)
  have : InAngle p u v x ↔ InAngle p u v y := ⟨key hy sy wx wy, key hx sx wy wx⟩
  rw [this]

/-- Directions which are separated by those of the contour lead to different sides. -/
theorem Contour.Simple.sides_of_crossesAt {c : Contour K} (h : c.Simple) {S : Set (Point K)} {p : Point K}
    (hs : ¬ SharesPiece S c.pts) (hx : CrossesAt S c.pts p) :
    (S ∩ c.interior).Nonempty ∧ (S ∩ c.exterior).Nonempty := by
  obtain ⟨x, y, u, v, wx, wy, wu, wv, h1, h2⟩ := hx
  obtain ⟨k1, k2⟩ := h1.exchange h2
  obtain ⟨u', v', hu', hv', hns', su', sv', κ, hκ⟩ := h.directions (wu (Segment.start_mem _))
  have seen : ∀ {x : Point K}, x ≠ p → (⟨p, x⟩ : Segment K).pts ⊆ S →
      ∃ z, z ≠ p ∧ Seen c p z ∧ SameRay p x z ∧ z ∈ S := by
    intro x hx wx
    obtain ⟨r, r0, r1, hr⟩ := exists_seen (c := c) (s := ⟨p, x⟩) hx.symm fun e he => by
      by_contra k
      obtain ⟨a, ha, b, hb, hne⟩ := Set.not_subsingleton_iff.mp k
      exact hs ⟨⟨a, b⟩, hne, (Segment.pts_subset ha.1 hb.1).trans wx,
        fun z hz => ⟨e, he, Segment.pts_subset ha.2 hb.2 hz⟩⟩
    refine ⟨lerp p x r, fun k => r0.ne (lerp_injective hx.symm ((lerp_zero p x).trans k.symm)), hr, ⟨r, r0, rfl⟩,
      wx ⟨r, r0.le, r1, rfl⟩⟩
  obtain ⟨a, ha, sa, ra, ma⟩ := seen h1.left_ne wx
  obtain ⟨b, hb, sb, rb, mb⟩ := seen h1.right_ne wy
  have refl : ∀ x : Point K, SameRay p x x := fun x => ⟨1, one_pos, (lerp_one p x).symm⟩
  have k1 : InAngle p u v b := k1.congr (refl _) (refl _) rb
  have k2 : InAngle p v u a := k2.congr (refl _) (refl _) ra
  -- the same with the directions for which the sides are known
  have diff : InAngle p u' v' a ↔ ¬ InAngle p u' v' b := by
    have hu := h.way_cases hu' hv' k1.left_ne hns' su' sv' wu
    have hv := h.way_cases hu' hv' k1.right_ne hns' su' sv' wv
    rcases hu with hu | hu <;> rcases hv with hv | hv
    · exact absurd (hu.symm.trans hv) k1.not_sameRay
    · have e1 : InAngle p u' v' b := k1.congr hu.symm hv.symm (refl _)
      have e2 : InAngle p v' u' a := k2.congr hv.symm hu.symm (refl _)
      exact ⟨fun k => absurd e2 k.not_swap, fun k => absurd e1 k⟩
    · have e1 : InAngle p v' u' b := k1.congr hu.symm hv.symm (refl _)
      have e2 : InAngle p u' v' a := k2.congr hv.symm hu.symm (refl _)
      exact ⟨fun _ k => k.not_swap e1, fun _ => e2⟩
    · exact absurd (hu.symm.trans hv) k1.not_sameRay
  have ia := hκ a ha sa
  have ib := hκ b hb sb
  have na : a ∉ c.pts := sa a (Segment.finish_mem _) ha
  have nb : b ∉ c.pts := sb b (Segment.finish_mem _) hb
  rcases Contour.cover na with ca | ca <;> rcases Contour.cover nb with cb | cb
  · exfalso
    have := ia.mp ca; have := ib.mp cb
    by_cases κ <;> simp_all
  · exact ⟨⟨a, ma, ca⟩, ⟨b, mb, cb⟩⟩
  · exact ⟨⟨b, mb, cb⟩, ⟨a, ma, ca⟩⟩
  · exfalso
    have := fun k => Contour.not_both k ca
    have := fun k => Contour.not_both k cb
    by_cases κ <;> simp_all

/-- A closed curve which has no common pieces with a contour and crosses it nowhere stays at one side of it. -/
theorem Contour.Simple.one_side {a c : Contour K} (ha : a.Simple) (h : c.Simple) (hs : ¬ SharesPiece a.pts c.pts)
    (hn : ¬ ∃ p, CrossesAt a.pts c.pts p) {x y : Point K} (hx : x ∈ a.pts) (hy : y ∈ a.pts) (nx : x ∉ c.pts)
    (ny : y ∉ c.pts) : x ∈ c.interior ↔ y ∈ c.interior := by
  push Not at hn
  have sub : ∀ {s : Segment K}, s.pts ⊆ a.pts → ∀ e ∈ c.edgeList, (s.pts ∩ e.pts).Subsingleton := by
    intro s hsa e he
    by_contra k
    obtain ⟨u, hu, v, hv, hne⟩ := Set.not_subsingleton_iff.mp k
    exact hs ⟨⟨u, v⟩, hne, (Segment.pts_subset hu.1 hv.1).trans hsa, fun z hz => ⟨e, he, Segment.pts_subset hu.2 hv.2 hz⟩⟩
  have edge : ∀ {s : Segment K}, s.Nondegenerate → s.pts ⊆ a.pts → ∀ {x y : Point K}, x ∈ s.pts → y ∈ s.pts →
      x ∉ c.pts → y ∉ c.pts → (x ∈ c.interior ↔ y ∈ c.interior) := by
    intro s hsn hsa x y hx hy nx ny
    have hb : Bounces c s := by
      intro t δ d0 h0 h1 hm s1 s2
      have ne : ∀ u, u ≠ t → lerp s.start s.finish u ≠ lerp s.start s.finish t := fun u hu k =>
        hu (lerp_injective hsn k)
      have mem : ∀ u, 0 ≤ u → u ≤ 1 → lerp s.start s.finish u ∈ s.pts := fun u u0 u1 => ⟨u, u0, u1, rfl⟩
      have way : ∀ u, 0 ≤ u → u ≤ 1 →
          (⟨lerp s.start s.finish t, lerp s.start s.finish u⟩ : Segment K).pts ⊆ a.pts := fun u u0 u1 =>
        (Segment.pts_subset (mem t (by linarith) (by linarith)) (mem u u0 u1)).trans hsa
      exact h.same_of_not_crossesAt hm (ne _ (by linarith)) (ne _ (by linarith)) s1 s2
        (way _ h0 (by linarith)) (way _ (by linarith) h1) (hn _)
    obtain ⟨L, hL⟩ := exists_contacts s hsn c.edgeList (sub hsa)
    obtain ⟨t, t0, t1, rfl⟩ := hx
    obtain ⟨u, u0, u1, rfl⟩ := hy
    rcases le_total t u with h' | h'
    · exact Bounces.same_side hsn hL hb _ t u t0 h' u1 le_rfl nx ny
    · exact (Bounces.same_side hsn hL hb _ u t u0 h' t1 le_rfl ny nx).symm
  have seen : ∀ {w o : Point K}, w ≠ o → (⟨w, o⟩ : Segment K).pts ⊆ a.pts →
      ∃ z ∈ (⟨w, o⟩ : Segment K).pts, z ≠ w ∧ Seen c w z ∧ z ∉ c.pts := by
    intro w o hne hsa
    obtain ⟨r, r0, r1, hr⟩ := exists_seen (c := c) (s := ⟨w, o⟩) hne (sub hsa)
    have hz : lerp w o r ≠ w := fun k => r0.ne (lerp_injective hne ((lerp_zero w o).trans k.symm))
    exact ⟨lerp w o r, ⟨r, r0.le, r1, rfl⟩, hz, hr, hr _ (Segment.finish_mem _) hz⟩
  have inside : ∀ e ∈ a.edgeList, e.pts ⊆ a.pts := fun e he => subset_segsPts he
  have next : ∀ {p w q : Point K}, ⟨p, w⟩ ∈ a.edgeList → ⟨w, q⟩ ∈ a.edgeList → ∀ {x y : Point K},
      x ∈ (⟨p, w⟩ : Segment K).pts → y ∈ (⟨w, q⟩ : Segment K).pts → x ∉ c.pts → y ∉ c.pts →
      (x ∈ c.interior ↔ y ∈ c.interior) := by
    intro p w q hp hq x y hx hy nx ny
    have n1 : p ≠ w := ha.nondegenerate hp
    have n2 : w ≠ q := ha.nondegenerate hq
    have e1 := @edge ⟨p, w⟩ n1 (inside _ hp)
    have e2 := @edge ⟨w, q⟩ n2 (inside _ hq)
    by_cases hw : w ∈ c.pts
    · have erev : (⟨w, p⟩ : Segment K).pts = (⟨p, w⟩ : Segment K).pts := Segment.pts_reverse ⟨p, w⟩
      have sp : (⟨w, p⟩ : Segment K).pts ⊆ a.pts := by rw [erev]; exact inside _ hp
      obtain ⟨z, z1, z2, z3, z4⟩ := seen n1.symm sp
      obtain ⟨z', z1', z2', z3', z4'⟩ := seen n2 (inside _ hq)
      rw [e1 hx (erev ▸ z1) nx z4, e2 hy z1' ny z4']
      exact h.same_of_not_crossesAt hw z2 z2' z3 z3' ((Segment.pts_subset (Segment.start_mem _) z1).trans sp)
        ((Segment.pts_subset (Segment.start_mem _) z1').trans (inside _ hq)) (hn w)
    · rw [e1 hx (Segment.finish_mem _) nx hw, e2 hy (Segment.start_mem _) ny hw]
  obtain ⟨e, he, hxe⟩ := hx
  obtain ⟨f, hf, hyf⟩ := hy
  obtain ⟨i, hi, rfl⟩ := List.mem_iff_getElem.mp he
  obtain ⟨j, hj, rfl⟩ := List.mem_iff_getElem.mp hf
  have chain : ∀ k (hk : k < a.edgeList.length) (h0 : 0 < a.edgeList.length), ∀ x ∈ (a.edgeList[0]).pts,
      ∀ y ∈ (a.edgeList[k]).pts, x ∉ c.pts → y ∉ c.pts → (x ∈ c.interior ↔ y ∈ c.interior) := by
    intro k
    induction k with
    | zero =>
      intro hk h0 x hx y hy nx ny
      exact edge (ha.nondegenerate (List.getElem_mem h0)) (inside _ (List.getElem_mem h0)) hx hy nx ny
    | succ k ih =>
      intro hk h0 x hx y hy nx ny
      have hk' : k < a.edgeList.length := by omega
      have g1 := ha.nondegenerate (List.getElem_mem hk')
      obtain ⟨z, z1, -, -, z4⟩ := seen g1 (inside _ (List.getElem_mem hk'))
      rw [ih hk' h0 x hx z z1 nx z4]
      have len := Contour.length_edgeList a
      have e1 : a.edgeList[k + 1].start = a.edgeList[k].finish := by
        rw [Contour.edgeList_getElem, Contour.edgeList_getElem]
        have hmod : (k + 1 + (a.vertices.length - 1)) % a.vertices.length = k := by
          rw [show k + 1 + (a.vertices.length - 1) = k + a.vertices.length by omega, Nat.add_mod_right]
          exact Nat.mod_eq_of_lt (by omega)
        simp only [hmod]
      exact next (p := a.edgeList[k].start) (w := a.edgeList[k].finish) (q := a.edgeList[k + 1].finish)
        (List.getElem_mem hk') (by rw [← e1]; exact List.getElem_mem hk) z1 (by rw [← e1]; exact hy) z4 ny
  have h0 : 0 < a.edgeList.length := by omega
  obtain ⟨z, z1, -, -, z4⟩ := seen (ha.nondegenerate (List.getElem_mem h0)) (inside _ (List.getElem_mem h0))
  rw [← chain i hi h0 z z1 x hxe z4 nx, ← chain j hj h0 z z1 y hyf z4 ny]

/-- Contours without common pieces cross each other at a point if and only if one of them has points at both sides of
the other one. -/
theorem Contour.Simple.crosses_iff {a c : Contour K} (ha : a.Simple) (h : c.Simple) (hs : ¬ SharesPiece a.pts c.pts) :
    (∃ p, CrossesAt a.pts c.pts p) ↔ (a.pts ∩ c.interior).Nonempty ∧ (a.pts ∩ c.exterior).Nonempty := by
  constructor
  · rintro ⟨p, hp⟩
    exact h.sides_of_crossesAt hs hp
  · rintro ⟨⟨x, x1, x2⟩, y, y1, y2⟩
    by_contra hn
    exact Contour.not_both ((ha.one_side h hs hn x1 y1 x2.1 y2.1).mp x2) y2

end Orient
