import Verif.Lemmas.Apart
import Verif.Lemmas.Sweep.Area

/-! On which side of a contour the points near to it are, and how segments pass its points. -/

set_option linter.unusedSectionVars false

namespace Orient

open Segment

variable {K : Type} [Field K] [LinearOrder K] [IsStrictOrderedRing K]

theorem exists_small {a b A B : K} (ha : 0 < a) (hb : 0 < b) (hA : 0 ≤ A) (hB : 0 ≤ B) :
    ∃ r : K, 0 < r ∧ r < 1 ∧ ∀ r', 0 ≤ r' → r' ≤ r → r' * A ≤ a ∧ r' * B ≤ b := by
  refine ⟨min (1 / 2) (min (a / (A + 1)) (b / (B + 1))), by positivity,
    (min_le_left _ _).trans_lt (by norm_num), fun r' h0 h1 => ?_⟩
  have h2 := h1.trans ((min_le_right _ _).trans (min_le_left _ _))
  have h3 := h1.trans ((min_le_right _ _).trans (min_le_right _ _))
  rw [le_div_iff₀ (by linarith)] at h2 h3
  exact ⟨by nlinarith, by nlinarith⟩

/-- The points at the sides of edges. -/
theorem Side.interior_iff {ε : K} {c : Contour K} (hs : c.Simple) (hm : c.Mono ε) {p v q : Point K}
    (hl : c.LeastCorner p v q) {e : Segment K} (he : e ∈ c.edgeList) {t σ : K} (hσ : Sign σ)
    {x : Point K} (hx : Side ε c.pts e.up t σ x) :
    x ∈ c.interior ↔ (σ = 1 ↔ (e.start < e.finish ↔ 0 < cross p v q)) := by
  obtain ⟨t', l', f'⟩ := exists_free_live hs hm he
  obtain ⟨y, hy⟩ := exists_side hs hm he l' hσ
  rw [Contour.interior_iff_of_joined (hx.steady hs hm he hσ hy)]
  rw [← turned_iff_cross hs hm hl he l' f']
  unfold Turned
  rw [iff_iff_cancel]
  obtain ⟨-, δ, h0, rfl, h1⟩ := hy
  have hn : ∀ e ∈ c.edgeList, e.Nondegenerate := fun e he => hs.nondegenerate he
  have := (mem_interior_iff_lowers hm hn (h1 δ h0 le_rfl) (by rw [col_time]; exact f')).1
  rw [this, col_time]
  obtain ⟨i, hi⟩ := List.mem_iff_getElem?.mp he
  obtain ⟨o, hperm, ho⟩ := exists_perm_one hi
  have hp' : c.ups.Perm (e.up :: o.map Segment.up) := hperm.map Segment.up
  rw [lowers_perm hp', lowers_perm hp']
  have rest : lowers ε t' (col ε t' (e.up.height ε t' + σ * δ)).y (o.map Segment.up)
      = lowers ε t' (e.up.height ε t') (o.map Segment.up) := by
    refine lowers_congr fun u hu => ?_
    obtain ⟨k, hk, rfl⟩ := List.mem_map.mp hu
    have hkm : k ∈ c.edgeList := hperm.mem_iff.mpr (List.mem_cons_of_mem _ hk)
    have htk := hm.times hkm (hn k hkm)
    refine and_congr_right fun hlk => ?_
    have on : col ε t' (k.up.height ε t') ∈ c.pts := by
      refine ⟨k, hkm, ?_⟩
      rw [← Segment.pts_up, mem_pts_iff_height htk, col_time]
      exact ⟨hlk.1.le, hlk.2.le, rfl⟩
    have hne : k.up.height ε t' ≠ e.up.height ε t' := by
      intro heq
      obtain ⟨m, hmi, hmk⟩ := ho k hk
      have hte := hm.times he (hn e he)
      have p1 : col ε t' (e.up.height ε t') ∈ e.pts := by
        rw [← Segment.pts_up, mem_pts_iff_height hte, col_time]
        exact ⟨l'.1.le, l'.2.le, rfl⟩
      have p2 : col ε t' (e.up.height ε t') ∈ k.pts := by
        rw [← Segment.pts_up, mem_pts_iff_height htk, col_time]
        exact ⟨hlk.1.le, hlk.2.le, heq.symm⟩
      have := (hs.meet_getElem hi hmk hmi.symm p1 p2).1
      have hv := Contour.edge_vertices he
      rcases this with h | h
      · exact f' _ hv.1 (by rw [← h, col_time])
      · exact f' _ hv.2 (by rw [← h, col_time])
    change k.up.height ε t' < e.up.height ε t' + σ * δ ↔ _
    rcases hσ with rfl | rfl
    · constructor
      · intro h
        by_contra hge
        have hge := lt_of_le_of_ne (not_lt.mp hge) hne.symm
        refine h1 (k.up.height ε t' - e.up.height ε t') (by linarith) (by linarith) ?_
        rw [one_mul, add_sub_cancel]
        exact on
      · intro h; linarith
    · constructor
      · intro h; linarith
      · intro h
        by_contra hge
        refine h1 (e.up.height ε t' - k.up.height ε t') (by linarith) (by linarith) ?_
        have : e.up.height ε t' + -1 * (e.up.height ε t' - k.up.height ε t') = k.up.height ε t' := by ring
        rw [this]
        exact on
  have split : ∀ h, lowers ε t' h (e.up :: o.map Segment.up)
      = lowers ε t' h (o.map Segment.up) + if e.up.height ε t' < h then 1 else 0 := by
    intro h
    unfold lowers
    rw [List.countP_cons]
    simp only [decide_eq_true_eq, l', true_and]
  rw [split, split, rest, if_neg (lt_irrefl _)]
  change Odd (_ + if e.up.height ε t' < e.up.height ε t' + σ * δ then 1 else 0) ↔ _
  rcases hσ with rfl | rfl
  · rw [if_pos (by linarith)]
    simp [Nat.odd_add_one]
  · rw [if_neg (by linarith)]
    have : ¬ (-1 : K) = 1 := by norm_num
    simp [this]

theorem Segment.cross_up (e : Segment K) (x : Point K) :
    cross e.up.start e.up.finish x
      = if e.finish < e.start then - cross e.start e.finish x else cross e.start e.finish x := by
  unfold Segment.up State.sorted
  by_cases h : e.start > e.finish
  · simp only [h, if_true]
    exact cross_flip ..
  · simp only [h, if_false]

/-- From the point the other one is seen: the way meets the contour at most at the beginning. -/
def Seen (c : Contour K) (m x : Point K) : Prop := ∀ z ∈ (⟨m, x⟩ : Segment K).pts, z ≠ m → z ∉ c.pts

theorem Seen.near {c : Contour K} {m x : Point K} (h : Seen c m x) {r : K} (r0 : 0 ≤ r) (r1 : r ≤ 1) :
    Seen c m (lerp m x r) :=
  fun z hz => h z (Segment.pts_subset (Segment.start_mem ⟨m, x⟩) ⟨r, r0, r1, rfl⟩ hz)

theorem Seen.interior_iff {c : Contour K} {m x : Point K} (h : Seen c m x) (hne : m ≠ x) {r : K}
    (r0 : 0 < r) (r1 : r ≤ 1) : lerp m x r ∈ c.interior ↔ x ∈ c.interior := by
  refine Contour.interior_iff_of_avoids fun z hz => h z ?_ ?_
  · exact Segment.pts_subset ⟨r, r0.le, r1, rfl⟩ (Segment.finish_mem ⟨m, x⟩) hz
  · rintro rfl
    obtain ⟨u, u0, u1, hu⟩ := hz
    have e1 : (x : Point K) = lerp z x 1 := (lerp_one z x).symm
    have hu' : z = lerp z x (r + u * (1 - r)) := by
      have := lerp_lerp z x r 1 u
      rw [← e1] at this
      exact hu.trans this
    have := lerp_injective hne ((lerp_zero z x).trans hu')
    nlinarith

/-- Points seen from an inner point of an edge. -/
theorem Contour.Simple.seen_edge {c : Contour K} (hs : c.Simple) {p v q : Point K}
    (hl : c.LeastCorner p v q) {e : Segment K} (he : e ∈ c.edgeList) {m x : Point K}
    (hme : m ∈ e.pts) (hend : ¬ e.IsEndpoint m) (hx : Seen c m x)
    (hn : cross e.start e.finish x ≠ 0) :
    x ∈ c.interior ↔ (0 < cross e.start e.finish x ↔ 0 < cross p v q) := by
  obtain ⟨ε, hm⟩ := c.exists_mono
  have hte := hm.times he (hs.nondegenerate he)
  have hmm := hme
  rw [← Segment.pts_up, mem_pts_iff_height hte] at hmm
  have l1 : e.up.start.time ε < m.time ε := lt_of_le_of_ne hmm.1 fun h => hend (Segment.up_endpoint.mp (.inl (by
    refine Point.ext_time h.symm ?_
    rw [hmm.2.2, ← h, height_start])))
  have l2 : m.time ε < e.up.finish.time ε := lt_of_le_of_ne hmm.2.1 fun h => hend (Segment.up_endpoint.mp (.inr (by
    refine Point.ext_time h ?_
    rw [hmm.2.2, h, height_finish hte])))
  obtain ⟨t₁, a1, a2⟩ := exists_between l1
  obtain ⟨t₂, b1, b2⟩ := exists_between l2
  obtain ⟨δ, hδ, hg⟩ := exists_gap hs hm he (a2.trans b1).le a1 b2
  have hmx : m ≠ x := by
    rintro rfl
    exact hn (Segment.cross_eq_zero hme)
  obtain ⟨r, r0, r1, hr⟩ := exists_small (a := min (m.time ε - t₁) (t₂ - m.time ε)) (b := δ)
    (A := |x.time ε - m.time ε|) (B := |x.y - e.up.height ε (x.time ε)|)
    (lt_min (by linarith) (by linarith)) hδ (abs_nonneg _) (abs_nonneg _)
  obtain ⟨k1, k2⟩ := hr r r0.le le_rfl
  rw [← hx.interior_iff hmx r0 r1.le]
  set w := lerp m x r with hw
  have wt : w.time ε = m.time ε + r * (x.time ε - m.time ε) := by
    simp only [hw, lerp, Point.time]; ring
  have wy : w.y - e.up.height ε (w.time ε) = r * (x.y - e.up.height ε (x.time ε)) := by
    rw [wt, height_eq e.up _ (m.time ε), height_eq e.up (x.time ε) (m.time ε), ← hmm.2.2]
    simp only [hw, lerp]; ring
  have kt : |r * (x.time ε - m.time ε)| ≤ min (m.time ε - t₁) (t₂ - m.time ε) := by
    rw [abs_mul, abs_of_pos r0]; exact k1
  have g1 := abs_le.mp (kt.trans (min_le_left _ _))
  have g2 := abs_le.mp (kt.trans (min_le_right _ _))
  -- the side
  have hcr := cross_eq_height hte x
  have hD : x.y - e.up.height ε (x.time ε) ≠ 0 := by
    intro h0
    rw [h0, mul_zero] at hcr
    rw [Segment.cross_up] at hcr
    split_ifs at hcr
    · exact hn (neg_eq_zero.mp hcr)
    · exact hn hcr
  obtain ⟨σ, hσ, hσd⟩ := exists_sign hD
  have side : Side ε c.pts e.up (w.time ε) σ w := by
    refine ⟨⟨by rw [wt]; linarith, by rw [wt]; linarith⟩, r * |x.y - e.up.height ε (x.time ε)|,
      mul_pos r0 (abs_pos.mpr hD), ?_, fun δ' d0 d1 => ?_⟩
    · have : e.up.height ε (w.time ε) + σ * (r * |x.y - e.up.height ε (x.time ε)|) = w.y := by
        have : σ * (r * |x.y - e.up.height ε (x.time ε)|) = w.y - e.up.height ε (w.time ε) := by
          rw [wy]
          conv_rhs => rw [hσd]
          ring
        rw [this]; ring
      rw [this, col_self]
    · refine hg _ (by rw [wt]; linarith) (by rw [wt]; linarith) _ (mul_ne_zero hσ.ne d0.ne') ?_
      rw [abs_mul, hσ.abs, one_mul, abs_of_pos d0]
      exact d1.trans k2
  rw [side.interior_iff hs hm hl he hσ]
  have hpos : (0:K) < |x.y - e.up.height ε (x.time ε)| := abs_pos.mpr hD
  have hup : (σ = 1 ↔ e.start < e.finish) ↔ 0 < cross e.start e.finish x := by
    have hT : 0 < e.up.finish.time ε - e.up.start.time ε := by linarith
    rw [hσd, Segment.cross_up] at hcr
    have hsign : 0 < (e.up.finish.time ε - e.up.start.time ε) * (σ * |x.y - e.up.height ε (x.time ε)|)
        ↔ σ = 1 := by
      rw [mul_pos_iff_of_pos_left hT, mul_pos_iff_of_pos_right hpos]
      rcases hσ with h | h <;> rw [h]
      · simp
      · norm_num
    by_cases h : e.start < e.finish
    · rw [if_neg (not_lt.mpr h.le)] at hcr
      simp only [h, iff_true]
      rw [hcr, hsign]
    · have h' : e.finish < e.start := lt_of_le_of_ne (not_lt.mp h) (hs.nondegenerate he).symm
      rw [if_pos h'] at hcr
      simp only [h, iff_false]
      rw [← hsign, ← hcr, neg_pos, not_lt]
      exact ⟨fun h => lt_of_le_of_ne h hn.symm, le_of_lt⟩
  rw [← hup]
  by_cases h1 : σ = 1 <;> by_cases h2 : e.start < e.finish <;> by_cases h3 : 0 < cross p v q <;> simp [h1, h2, h3]

/-- Points seen from an endpoint of an edge, with the other edge at this point out of the way. -/
theorem Contour.Simple.seen_beside {c : Contour K} (hs : c.Simple) {p v q : Point K}
    (hl : c.LeastCorner p v q) {e f : Segment K} (he : e ∈ c.edgeList) {w o b x : Point K}
    (heo : e = ⟨w, o⟩ ∨ e = ⟨o, w⟩) (hfb : f.pts = (⟨w, b⟩ : Segment K).pts)
    (hw : ∀ g ∈ c.edgeList, w ∈ g.pts → g = e ∨ g = f)
    (hx : Seen c w x) (hα : cross w o x ≠ 0)
    (hcone : cross w o x * cross w b x < 0 ∨ cross w o x * cross w o b < 0) :
    x ∈ c.interior ↔ (0 < cross e.start e.finish x ↔ 0 < cross p v q) := by
  classical
  obtain ⟨ε, hm⟩ := c.exists_mono
  have hwo : w ≠ o := by
    rintro rfl
    exact hα (by simp [cross])
  have hwx : w ≠ x := by
    rintro rfl
    exact hα (by simp [cross])
  have hts : ∀ e ∈ c.edgeList, e.up.start.time ε < e.up.finish.time ε :=
    fun e he => hm.times he (hs.nondegenerate he)
  obtain ⟨ρ, η, hρ, hη, hbox⟩ := exists_box (ε := ε) w ((c.edgeList.filter fun g => w ∉ g.pts).map Segment.up)
    (by
      intro u hu
      obtain ⟨k, hk, rfl⟩ := List.mem_map.mp hu
      exact hts k (List.mem_filter.mp hk).1)
    (by
      intro u hu hpu
      obtain ⟨k, hk, rfl⟩ := List.mem_map.mp hu
      have := (List.mem_filter.mp hk).2
      rw [Segment.pts_up] at hpu
      simp [hpu] at this)
  obtain ⟨δ, d0, d1, hδ⟩ := exists_small (a := ρ) (b := η)
    (A := |o.time ε - w.time ε| + |x.time ε - w.time ε|) (B := |o.y - w.y| + |x.y - w.y|)
    hρ hη (by positivity) (by positivity)
  obtain ⟨k1, k2⟩ := hδ δ d0.le le_rfl
  set m := lerp w o δ with hmdef
  set y := lerp w x δ with hydef
  have hxy : y ∈ c.interior ↔ x ∈ c.interior := hx.interior_iff hwx d0 d1.le
  have hme : m ∈ e.pts := by
    rcases heo with rfl | rfl
    · exact ⟨δ, d0.le, d1.le, rfl⟩
    · exact ⟨1 - δ, by linarith, by linarith, lerp_symm ..⟩
  have hend : ¬ e.IsEndpoint m := by
    have h1 : m ≠ w := by
      intro h
      have := lerp_injective hwo ((lerp_zero w o).trans h.symm)
      exact d0.ne this
    have h2 : m ≠ o := by
      intro h
      have := lerp_injective hwo (h.trans (lerp_one w o).symm)
      exact d1.ne this
    rcases heo with rfl | rfl
    · rintro (h | h)
      · exact h1 h
      · exact h2 h
    · rintro (h | h)
      · exact h2 h
      · exact h1 h
  have hcr : ∀ z, cross e.start e.finish z ≠ 0 ↔ cross w o z ≠ 0 := by
    rcases heo with rfl | rfl
    · exact fun z => Iff.rfl
    · intro z
      rw [cross_flip w o, neg_ne_zero]
  have hcy : cross e.start e.finish y = δ * cross e.start e.finish x := by
    rw [hydef, cross_lerp]
    have : cross e.start e.finish w = 0 := by
      rcases heo with rfl | rfl
      · simp [cross]
      · simp only [cross]; ring
    rw [this]; ring
  have hseen : Seen c m y := by
    rintro z ⟨r, r0, r1, hz⟩ hzm ⟨g, hg, hzg⟩
    simp only at hz
    have r0' : 0 < r := by
      refine lt_of_le_of_ne r0 fun h => hzm ?_
      rw [hz, ← h, lerp_zero]
    have zx : z.x = w.x + δ * ((1 - r) * (o.x - w.x) + r * (x.x - w.x)) := by
      rw [hz]; simp only [lerp, hmdef, hydef]; ring
    have zy : z.y = w.y + δ * ((1 - r) * (o.y - w.y) + r * (x.y - w.y)) := by
      rw [hz]; simp only [lerp, hmdef, hydef]; ring
    have hzo : cross w o z = δ * r * cross w o x := by
      simp only [cross, zx, zy]; ring
    have hzx : cross w z x = δ * (1 - r) * cross w o x := by
      simp only [cross, zx, zy]; ring
    by_cases hwg : w ∈ g.pts
    · rcases hw g hg hwg with rfl | rfl
      · have := Segment.cross_eq_zero hzg
        have h0 := mt (hcr z).mpr (by simpa using this)
        push Not at h0
        rw [hzo] at h0
        exact mul_ne_zero (mul_ne_zero d0.ne' r0'.ne') hα h0
      · rw [hfb] at hzg
        obtain ⟨u, u0, u1, hu⟩ := hzg
        simp only at hu
        have e1 : cross w z x = u * cross w b x := by
          rw [hu]; simp only [cross, lerp]; ring
        have e2 : cross w o z = u * cross w o b := by
          rw [hu]; simp only [cross, lerp]; ring
        rw [hzx] at e1
        rw [hzo] at e2
        have hα2 : 0 < cross w o x * cross w o x := mul_self_pos.mpr hα
        rcases hcone with h | h
        · have h3 : u * (cross w o x * cross w b x) = δ * (1 - r) * (cross w o x * cross w o x) := by
            linear_combination -(cross w o x) * e1
          have h4 : 0 ≤ δ * (1 - r) * (cross w o x * cross w o x) :=
            mul_nonneg (mul_nonneg d0.le (by linarith)) hα2.le
          have h5 : u = 0 := by
            by_contra hu0
            have : 0 < u := lt_of_le_of_ne u0 (Ne.symm hu0)
            nlinarith
          rw [h5, zero_mul] at e2
          exact mul_ne_zero (mul_ne_zero d0.ne' r0'.ne') hα e2
        · have h3 : u * (cross w o x * cross w o b) = δ * r * (cross w o x * cross w o x) := by
            linear_combination -(cross w o x) * e2
          have h4 : 0 < δ * r * (cross w o x * cross w o x) := by positivity
          nlinarith
    · have hA : |z.time ε - w.time ε| ≤ ρ := by
        have : z.time ε - w.time ε
            = δ * ((1 - r) * (o.time ε - w.time ε) + r * (x.time ε - w.time ε)) := by
          simp only [Point.time, zx, zy]; ring
        rw [this, abs_mul, abs_of_pos d0]
        refine le_trans (mul_le_mul_of_nonneg_left ?_ d0.le) k1
        refine (abs_add_le _ _).trans (add_le_add ?_ ?_)
        · rw [abs_mul, abs_of_nonneg (by linarith)]
          exact mul_le_of_le_one_left (abs_nonneg _) (by linarith)
        · rw [abs_mul, abs_of_nonneg r0]
          exact mul_le_of_le_one_left (abs_nonneg _) r1
      have hB : |z.y - w.y| ≤ η := by
        have : z.y - w.y = δ * ((1 - r) * (o.y - w.y) + r * (x.y - w.y)) := by
          rw [zy]; ring
        rw [this, abs_mul, abs_of_pos d0]
        refine le_trans (mul_le_mul_of_nonneg_left ?_ d0.le) k2
        refine (abs_add_le _ _).trans (add_le_add ?_ ?_)
        · rw [abs_mul, abs_of_nonneg (by linarith)]
          exact mul_le_of_le_one_left (abs_nonneg _) (by linarith)
        · rw [abs_mul, abs_of_nonneg r0]
          exact mul_le_of_le_one_left (abs_nonneg _) r1
      have := hbox _ (List.mem_map.mpr ⟨g, List.mem_filter.mpr ⟨hg, by simpa using hwg⟩, rfl⟩) z
        (by rw [Segment.pts_up]; exact hzg) hA
      exact absurd hB (not_le.mpr this)
  have hn : cross e.start e.finish x ≠ 0 := (hcr x).mpr hα
  rw [← hxy, hs.seen_edge hl he hme hend hseen (by rw [hcy]; exact mul_ne_zero d0.ne' hn), hcy,
    mul_pos_iff_of_pos_left d0]

/-- The only edges at a vertex are the two next to it. -/
theorem Contour.Simple.edges_at {c : Contour K} (hs : c.Simple) {a w b : Point K}
    (h1 : ⟨a, w⟩ ∈ c.edgeList) (h2 : ⟨w, b⟩ ∈ c.edgeList) {g : Segment K} (hg : g ∈ c.edgeList)
    (hw : w ∈ g.pts) : g = ⟨a, w⟩ ∨ g = ⟨w, b⟩ := by
  obtain ⟨i, hi⟩ := List.mem_iff_getElem?.mp h1
  obtain ⟨j, hj⟩ := List.mem_iff_getElem?.mp h2
  obtain ⟨k, hk⟩ := List.mem_iff_getElem?.mp hg
  by_cases h : k = i
  · subst h; rw [hi] at hk; exact .inl (Option.some.inj hk).symm
  by_cases h' : k = j
  · subst h'; rw [hj] at hk; exact .inr (Option.some.inj hk).symm
  exfalso
  have e1 := (hs.meet_getElem hk hi h hw (Segment.finish_mem _))
  have n1 : a ≠ w := hs.nondegenerate h1
  have n2 : w ≠ b := hs.nondegenerate h2
  have k1 : w = g.start := by
    rcases hs.next_of_common hk hi h e1.1 e1.2 with ⟨-, -, h⟩ | ⟨-, -, h⟩
    · exact absurd h.symm n1
    · exact h
  have k2 : w = g.finish := by
    rcases hs.next_of_common hk hj h' e1.1 (p := w) (.inl rfl) with ⟨-, h, -⟩ | ⟨-, h, -⟩
    · exact h
    · exact absurd h n2
  exact hs.nondegenerate hg (k1.symm.trans k2)

/-- Whether a direction at a vertex leads to the left of the contour. -/
def CornerLeft (a w b x : Point K) : Prop :=
  if 0 < cross a w b then 0 < cross a w x ∧ 0 < cross w b x else 0 < cross a w x ∨ 0 < cross w b x

/-- Whether a direction at a vertex leads to the right of the contour. -/
def CornerRight (a w b x : Point K) : Prop :=
  if 0 < cross a w b then cross a w x < 0 ∨ cross w b x < 0 else cross a w x < 0 ∧ cross w b x < 0

/-- A point which is on the line of a segment but not in its direction lies in the opposite one. -/
theorem exists_opposite {w b x : Point K} (hb : w ≠ b) (hx : w ≠ x) (h0 : cross w b x = 0)
    (h : ∀ r u : K, 0 < r → r ≤ 1 → 0 ≤ u → u ≤ 1 → lerp w x r ≠ lerp w b u) :
    ∃ k : K, k < 0 ∧ x = lerp w b k := by
  obtain ⟨k, hk⟩ : ∃ k, x = lerp w b k := by
    by_cases h1 : b.x = w.x
    · have h2 : b.y - w.y ≠ 0 := fun h2 => hb (Point.ext h1.symm (by linarith))
      refine ⟨(x.y - w.y) / (b.y - w.y), ?_⟩
      have h3 : x.x = w.x := by
        have : (x.x - w.x) * (b.y - w.y) = 0 := by
          simp only [cross, h1] at h0
          linear_combination -h0
        rcases mul_eq_zero.mp this with h | h
        · linarith
        · exact absurd h h2
      refine Point.ext ?_ ?_
      · simp only [lerp, h1, h3]; ring
      · simp only [lerp]; field_simp; ring
    · have h2 : b.x - w.x ≠ 0 := sub_ne_zero.mpr h1
      refine ⟨(x.x - w.x) / (b.x - w.x), ?_⟩
      refine Point.ext ?_ ?_
      · simp only [lerp]; field_simp; ring
      · simp only [lerp]
        simp only [cross] at h0
        field_simp
        linear_combination h0
  refine ⟨k, ?_, hk⟩
  by_contra hk0
  push Not at hk0
  have hk0 : 0 < k := lt_of_le_of_ne hk0 fun e => hx (by rw [hk, ← e, lerp_zero])
  have : lerp w x (min 1 (1 / k)) = lerp w b (min 1 (1 / k) * k) := by
    rw [hk]; simp only [lerp, Point.mk.injEq]; constructor <;> ring
  refine h (min 1 (1 / k)) (min 1 (1 / k) * k) (by positivity) (min_le_left _ _) (by positivity) ?_ this
  calc min 1 (1 / k) * k ≤ 1 / k * k := mul_le_mul_of_nonneg_right (min_le_right _ _) hk0.le
    _ = 1 := by field_simp

/-- Points seen from a vertex. -/
theorem Contour.Simple.seen_corner {c : Contour K} (hs : c.Simple) {p v q : Point K}
    (hl : c.LeastCorner p v q) {a w b x : Point K} (h1 : ⟨a, w⟩ ∈ c.edgeList)
    (h2 : ⟨w, b⟩ ∈ c.edgeList) (hne : w ≠ x) (hx : Seen c w x) :
    (x ∈ c.interior ↔ (CornerLeft a w b x ↔ 0 < cross p v q)) ∧
      (CornerRight a w b x ↔ ¬ CornerLeft a w b x) := by
  have n1 : a ≠ w := hs.nondegenerate h1
  have n2 : w ≠ b := hs.nondegenerate h2
  have away : ∀ {o : Point K}, (⟨w, o⟩ : Segment K).pts ⊆ c.pts → ∀ r u : K, 0 < r → r ≤ 1 → 0 ≤ u →
      u ≤ 1 → lerp w x r ≠ lerp w o u := by
    intro o ho r u r0 r1 u0 u1 he
    refine hx (lerp w x r) ⟨r, r0.le, r1, rfl⟩ ?_ (ho ⟨u, u0, u1, he⟩)
    intro h
    exact r0.ne (lerp_injective hne ((lerp_zero w x).trans h.symm))
  have erev : (⟨w, a⟩ : Segment K).pts = (⟨a, w⟩ : Segment K).pts := Segment.pts_reverse ⟨a, w⟩
  have sa : (⟨w, a⟩ : Segment K).pts ⊆ c.pts := by
    rw [erev]; exact subset_segsPts h1
  have sb : (⟨w, b⟩ : Segment K).pts ⊆ c.pts := subset_segsPts h2
  have F1 : cross w a x = 0 → ∃ k < 0, x = lerp w a k := fun h => exists_opposite n1.symm hne h (away sa)
  have F2 : cross w b x = 0 → ∃ k < 0, x = lerp w b k := fun h => exists_opposite n2 hne h (away sb)
  have F3 : cross w a b = 0 → ∃ k < 0, b = lerp w a k := by
    intro h
    refine exists_opposite n1.symm n2 h fun r u r0 r1 u0 u1 he => ?_
    obtain ⟨i, hi⟩ := List.mem_iff_getElem?.mp h1
    obtain ⟨j, hj⟩ := List.mem_iff_getElem?.mp h2
    have hij : i ≠ j := by
      rintro rfl
      rw [hi] at hj
      cases hj
      exact n1 rfl
    have m2 : lerp w b r ∈ (⟨w, b⟩ : Segment K).pts := ⟨r, r0.le, r1, rfl⟩
    have m1 : lerp w b r ∈ (⟨a, w⟩ : Segment K).pts := by rw [← erev]; exact ⟨u, u0, u1, he⟩
    obtain ⟨e1, e2⟩ := hs.meet_getElem hi hj hij m1 m2
    have hw : lerp w b r ≠ w := fun h => r0.ne (lerp_injective n2 ((lerp_zero w b).trans h.symm))
    have e1 := e1.resolve_right hw
    have e2 := e2.resolve_left hw
    simp only at e1 e2
    have hab : a = b := e1.symm.trans e2
    rcases hs.next_of_common hi hj hij (p := a) (.inl rfl) (.inr hab) with ⟨-, h, -⟩ | ⟨hn, -, -⟩
    · exact n1 h
    · rcases hs.next_of_common hi hj hij (p := w) (.inr rfl) (.inl rfl) with ⟨hn', -, -⟩ | ⟨-, h, -⟩
      · have := hs.three
        rcases hn with ⟨x1, x2⟩ | ⟨x1, x2⟩ <;> rcases hn' with ⟨y1, y2⟩ | ⟨y1, y2⟩ <;> omega
      · exact n2 h
  have hat := fun g (hg : g ∈ c.edgeList) hw => hs.edges_at h1 h2 hg (g := g) hw
  have C1 := fun hα hc => hs.seen_beside hl h1 (w := w) (o := a) (f := ⟨w, b⟩) (b := b) (x := x) (.inr rfl)
    rfl hat hx hα hc
  have C2 := fun hα hc => hs.seen_beside hl h2 (w := w) (o := b) (f := ⟨a, w⟩) (b := a) (x := x) (.inl rfl)
    erev.symm (fun g hg hw => (hat g hg hw).symm) hx hα hc
  have ea : cross a w x = - cross w a x := cross_flip ..
  have eb : cross a w b = - cross w a b := cross_flip ..
  have ec : cross w b a = - cross w a b := cross_swap ..
  unfold CornerRight CornerLeft
  simp only [ea, eb, ec] at C1 C2 ⊢
  have G1 : cross w a x = 0 → ∃ k < 0, cross w b x = - k * cross w a b := by
    intro h
    obtain ⟨k, k0, hk⟩ := F1 h
    refine ⟨k, k0, ?_⟩
    rw [hk]; simp only [cross, lerp]; ring
  have G2 : cross w b x = 0 → ∃ k < 0, cross w a x = k * cross w a b := by
    intro h
    obtain ⟨k, k0, hk⟩ := F2 h
    refine ⟨k, k0, ?_⟩
    rw [hk]; simp only [cross, lerp]; ring
  have G3 : cross w a b = 0 → cross w a x ≠ 0 ∧ ∃ k < 0, cross w b x = k * cross w a x := by
    intro h
    obtain ⟨k, k0, hk⟩ := F3 h
    have hβ : cross w b x = k * cross w a x := by
      rw [hk]; simp only [cross, lerp]; ring
    refine ⟨fun h0 => ?_, k, k0, hβ⟩
    obtain ⟨k1, k10, hk1⟩ := F1 h0
    obtain ⟨k2, k20, hk2⟩ := F2 (by rw [hβ, h0, mul_zero])
    have : lerp w a k1 = lerp w a (k2 * k) := by
      rw [← hk1, hk2, hk]; simp only [lerp, Point.mk.injEq]; constructor <;> ring
    have := lerp_injective n1.symm this
    nlinarith
  generalize cross w a x = α at *
  generalize cross w b x = β at *
  generalize cross w a b = γ at *
  rcases lt_trichotomy γ 0 with hγ | hγ | hγ
  · rw [if_pos (by linarith), if_pos (by linarith)]
    rcases lt_trichotomy α 0 with hα | hα | hα
    · rcases lt_trichotomy β 0 with hβ | hβ | hβ
      · rw [C2 hβ.ne (.inr (by nlinarith))]
        simp [not_lt.mpr hβ.le, hβ]
      · obtain ⟨k, k0, hk⟩ := G2 hβ
        nlinarith
      · rw [C1 hα.ne (.inl (by nlinarith))]
        simp [hα, hβ, hα.le, hβ.le]
    · obtain ⟨k, k0, hk⟩ := G1 hα
      have hβ : β < 0 := by nlinarith
      rw [C2 hβ.ne (.inr (by nlinarith))]
      simp [not_lt.mpr hβ.le, hβ]
    · rw [C1 hα.ne' (.inr (by nlinarith))]
      simp [not_lt.mpr hα.le, hα]
  · obtain ⟨hα, k, k0, hk⟩ := G3 hγ
    have hab : α * β < 0 := by
      have := mul_self_pos.mpr hα
      rw [hk]; nlinarith
    rw [if_neg (by linarith), if_neg (by linarith), C1 hα (.inl hab)]
    have : 0 < -α ↔ 0 < β := by
      constructor
      · intro h; rw [hk]; nlinarith
      · intro h; by_contra hn; nlinarith
    rw [← this, or_self]
    refine ⟨Iff.rfl, ?_⟩
    rcases lt_or_gt_of_ne hα with h | h
    · simp [h, h.le]
    · have : β < 0 := by rw [hk]; nlinarith
      simp [h, h.le, this]
  · rw [if_neg (by linarith), if_neg (by linarith)]
    rcases lt_trichotomy α 0 with hα | hα | hα
    · rw [C1 hα.ne (.inr (by nlinarith))]
      simp [hα, hα.le]
    · obtain ⟨k, k0, hk⟩ := G1 hα
      have hβ : 0 < β := by nlinarith
      rw [C2 hβ.ne' (.inr (by nlinarith))]
      simp [hβ, hα, hβ.le]
    · rcases lt_trichotomy β 0 with hβ | hβ | hβ
      · rw [C1 hα.ne' (.inl (by nlinarith))]
        simp [not_lt.mpr hα.le, not_lt.mpr hβ.le, hα, hβ]
      · obtain ⟨k, k0, hk⟩ := G2 hβ
        nlinarith
      · rw [C2 hβ.ne' (.inr (by nlinarith))]
        simp [hβ, hβ.le]

/-- A segment through an inner point of an edge leads to the other side. -/
theorem Contour.Simple.pass_edge {c : Contour K} (hs : c.Simple) {e : Segment K} (he : e ∈ c.edgeList)
    {m x : Point K} (hme : m ∈ e.pts) (hend : ¬ e.IsEndpoint m) (hne : m ≠ x) {k : K} (hk : k < 0)
    (hx : Seen c m x) (hy : Seen c m (lerp m x k)) :
    x ∈ c.interior ↔ lerp m x k ∉ c.interior := by
  obtain ⟨p, v, q, hl, -⟩ := hs.leastCorner
  have h0 : cross e.start e.finish x ≠ 0 := by
    intro h0
    have hcol : e.Collinear ⟨m, x⟩ := ⟨Segment.cross_eq_zero hme, h0⟩
    obtain ⟨a, ha, b, hb, hab⟩ := hcol.nontrivial_of_inner (t := ⟨m, x⟩) (hs.nondegenerate he) hne
      ⟨hme, hend⟩ (Segment.start_mem _)
    by_cases ham : a = m
    · exact hx b hb.2 (fun h => hab (ham.trans h.symm)) ⟨e, he, hb.1⟩
    · exact hx a ha.2 ham ⟨e, he, ha.1⟩
  have h1 : cross e.start e.finish (lerp m x k) = k * cross e.start e.finish x := by
    rw [cross_lerp, Segment.cross_eq_zero hme]; ring
  rw [hs.seen_edge hl he hme hend hx h0,
    hs.seen_edge hl he hme hend hy (by rw [h1]; exact mul_ne_zero hk.ne h0), h1]
  have : 0 < k * cross e.start e.finish x ↔ ¬ 0 < cross e.start e.finish x := by
    constructor
    · intro h h'; nlinarith
    · intro h
      have := lt_of_le_of_ne (not_lt.mp h) h0
      nlinarith
  rw [this]
  by_cases h2 : 0 < cross e.start e.finish x <;> by_cases h3 : 0 < cross p v q <;> simp [h2, h3]

/-- A segment through a vertex leads to the other side iff it separates the neighbours. -/
theorem Contour.Simple.pass_vertex {c : Contour K} (hs : c.Simple) {a w b x : Point K}
    (h1 : ⟨a, w⟩ ∈ c.edgeList) (h2 : ⟨w, b⟩ ∈ c.edgeList) (hne : w ≠ x) {k : K} (hk : k < 0)
    (hx : Seen c w x) (hy : Seen c w (lerp w x k)) :
    (x ∈ c.interior ↔ lerp w x k ∈ c.interior) ↔ ¬ cross w x a * cross w x b < 0 := by
  obtain ⟨p, v, q, hl, -⟩ := hs.leastCorner
  have hne' : w ≠ lerp w x k := fun h => hk.ne' (lerp_injective hne ((lerp_zero w x).trans h))
  obtain ⟨a1, a2⟩ := hs.seen_corner hl h1 h2 hne hx
  obtain ⟨b1, b2⟩ := hs.seen_corner hl h1 h2 hne' hy
  rw [a1, b1]
  have e1 : cross a w (lerp w x k) = k * cross a w x := by simp only [cross, lerp]; ring
  have e2 : cross w b (lerp w x k) = k * cross w b x := by simp only [cross, lerp]; ring
  have e3 : cross w x a = cross a w x := by simp only [cross]; ring
  have e4 : cross w x b = - cross w b x := by simp only [cross]; ring
  have neg : ∀ z : K, k * z < 0 ↔ 0 < z := fun z =>
    ⟨fun h => by by_contra hn; nlinarith, fun h => by nlinarith⟩
  have pos : ∀ z : K, 0 < k * z ↔ z < 0 := fun z =>
    ⟨fun h => by by_contra hn; nlinarith, fun h => by nlinarith⟩
  have prod : cross w x a * cross w x b < 0 ↔
      (0 < cross a w x ∧ 0 < cross w b x) ∨ (cross a w x < 0 ∧ cross w b x < 0) := by
    rw [e3, e4, mul_neg_iff, neg_lt_zero, neg_pos]
  have t1 : ¬ (0 < cross a w x ∧ cross a w x < 0) := fun h => lt_asymm h.1 h.2
  have t2 : ¬ (0 < cross w b x ∧ cross w b x < 0) := fun h => lt_asymm h.1 h.2
  rw [prod]
  unfold CornerRight CornerLeft at *
  rw [e1, e2, neg, neg, pos, pos] at b2
  rw [e1, e2, pos, pos]
  by_cases hc : 0 < cross a w b <;> simp only [hc, if_true, if_false] at a2 b2 ⊢ <;>
    clear a1 b1 e1 e2 e3 e4 neg pos prod <;>
    generalize (cross a w x < 0) = A at * <;> generalize (0 < cross a w x) = A' at * <;>
    generalize (cross w b x < 0) = B at * <;> generalize (0 < cross w b x) = B' at * <;>
    generalize (0 < cross p v q) = C at * <;>
    by_cases A <;> by_cases A' <;> by_cases B <;> by_cases B' <;> by_cases C <;> simp_all

/-! ### segments without common pieces -/

/-- The points where a segment meets a contour are finitely many. -/
theorem exists_contacts (s : Segment K) (hs : s.Nondegenerate) (l : List (Segment K))
    (hsub : ∀ e ∈ l, (s.pts ∩ e.pts).Subsingleton) :
    ∃ L : List K, ∀ t, 0 ≤ t → t ≤ 1 → lerp s.start s.finish t ∈ segsPts l → t ∈ L := by
  induction l with
  | nil => exact ⟨[], fun t _ _ ⟨e, he, _⟩ => absurd he (by simp)⟩
  | cons e l ih =>
    obtain ⟨L, hL⟩ := ih fun f hf => hsub f (by simp [hf])
    by_cases h : ∃ t, 0 ≤ t ∧ t ≤ 1 ∧ lerp s.start s.finish t ∈ e.pts
    · obtain ⟨t₀, h0, h1, hm⟩ := h
      refine ⟨t₀ :: L, fun t k0 k1 ⟨f, hf, hfm⟩ => ?_⟩
      rcases List.mem_cons.mp hf with rfl | hf
      · have := hsub f (by simp) ⟨⟨t₀, h0, h1, rfl⟩, hm⟩ ⟨⟨t, k0, k1, rfl⟩, hfm⟩
        rw [lerp_injective hs this]
        simp
      · exact List.mem_cons_of_mem _ (hL t k0 k1 ⟨f, hf, hfm⟩)
    · refine ⟨L, fun t k0 k1 ⟨f, hf, hfm⟩ => ?_⟩
      rcases List.mem_cons.mp hf with rfl | hf
      · exact absurd ⟨t, k0, k1, hfm⟩ h
      · exact hL t k0 k1 ⟨f, hf, hfm⟩

theorem exists_isolated (L : List K) (t : K) : ∃ δ : K, 0 < δ ∧ ∀ u ∈ L, u ≠ t → δ < |u - t| := by
  induction L with
  | nil => exact ⟨1, one_pos, by simp⟩
  | cons a L ih =>
    obtain ⟨δ, h0, h⟩ := ih
    by_cases ha : a = t
    · refine ⟨δ, h0, fun u hu hne => ?_⟩
      rcases List.mem_cons.mp hu with rfl | hu
      · exact absurd ha hne
      · exact h u hu hne
    · have : 0 < |a - t| := abs_pos.mpr (sub_ne_zero.mpr ha)
      refine ⟨min δ (|a - t| / 2), lt_min h0 (by linarith), fun u hu hne => ?_⟩
      rcases List.mem_cons.mp hu with rfl | hu
      · exact (min_le_right _ _).trans_lt (by linarith)
      · exact (min_le_left _ _).trans_lt (h u hu hne)

/-- Ways along a segment which avoid the other contacts. -/
theorem seen_along {s : Segment K} (hs : s.Nondegenerate) {c : Contour K} {L : List K}
    (hL : ∀ t, 0 ≤ t → t ≤ 1 → lerp s.start s.finish t ∈ c.pts → t ∈ L) {t u δ : K}
    (hδ : ∀ u ∈ L, u ≠ t → δ < |u - t|) (t0 : 0 ≤ t) (t1 : t ≤ 1) (u0 : 0 ≤ u) (u1 : u ≤ 1)
    (hu : |u - t| ≤ δ) : Seen c (lerp s.start s.finish t) (lerp s.start s.finish u) := by
  rintro z ⟨r, r0, r1, hz⟩ hne hc
  simp only at hz
  rw [lerp_lerp] at hz
  rw [hz] at hc hne
  have k0 : 0 ≤ t + r * (u - t) := by nlinarith
  have k1 : t + r * (u - t) ≤ 1 := by nlinarith
  have := hδ _ (hL _ k0 k1 hc) fun h => hne (by rw [h])
  rw [add_sub_cancel_left, abs_mul, abs_of_nonneg r0] at this
  have := mul_le_of_le_one_left (abs_nonneg (u - t)) r1
  linarith

/-- What the segment passes without going to the other side. -/
def Bounces (c : Contour K) (s : Segment K) : Prop :=
  ∀ t δ, 0 < δ → 0 ≤ t - δ → t + δ ≤ 1 → lerp s.start s.finish t ∈ c.pts →
    Seen c (lerp s.start s.finish t) (lerp s.start s.finish (t - δ)) →
    Seen c (lerp s.start s.finish t) (lerp s.start s.finish (t + δ)) →
    (lerp s.start s.finish (t - δ) ∈ c.interior ↔ lerp s.start s.finish (t + δ) ∈ c.interior)

theorem countP_lt {α : Type} {P Q : α → Bool} (mono : ∀ a, P a = true → Q a = true) {w : α}
    (hP : P w = false) (hQ : Q w = true) : ∀ {L : List α}, w ∈ L → L.countP P < L.countP Q
  | [], h => absurd h (by simp)
  | a :: L, h => by
    have le := List.countP_mono_left (l := L) (fun a _ => mono a)
    rw [List.countP_cons, List.countP_cons]
    rcases List.mem_cons.mp h with rfl | h
    · rw [hP, hQ, if_pos rfl, if_neg (by simp)]
      omega
    · have := countP_lt mono hP hQ h
      by_cases hx : P a = true
      · rw [if_pos hx, if_pos (mono a hx)]; omega
      · rw [if_neg hx]; split_ifs <;> omega

theorem Bounces.same_side {s : Segment K} (hs : s.Nondegenerate) {c : Contour K} {L : List K}
    (hL : ∀ t, 0 ≤ t → t ≤ 1 → lerp s.start s.finish t ∈ c.pts → t ∈ L) (hb : Bounces c s) :
    ∀ n : Nat, ∀ t u : K, 0 ≤ t → t ≤ u → u ≤ 1 →
      (L.filter fun a => decide (t < a ∧ a < u)).length ≤ n →
      lerp s.start s.finish t ∉ c.pts → lerp s.start s.finish u ∉ c.pts →
      (lerp s.start s.finish t ∈ c.interior ↔ lerp s.start s.finish u ∈ c.interior) := by
  intro n
  induction n with
  | zero =>
    intro t u t0 htu u1 hlen ht hu
    refine Contour.interior_iff_of_avoids ?_
    rintro z ⟨r, r0, r1, hz⟩ hc
    simp only at hz
    rw [lerp_lerp] at hz
    rw [hz] at hc
    have k0 : t ≤ t + r * (u - t) := by nlinarith
    have k1 : t + r * (u - t) ≤ u := by nlinarith
    have hm := hL _ (t0.trans k0) (k1.trans u1) hc
    have k0' : t < t + r * (u - t) := lt_of_le_of_ne k0 fun h => ht (by rw [← h] at hc; exact hc)
    have k1' : t + r * (u - t) < u := lt_of_le_of_ne k1 fun h => hu (by rw [h] at hc; exact hc)
    have hmf : t + r * (u - t) ∈ L.filter fun a => decide (t < a ∧ a < u) :=
      List.mem_filter.mpr ⟨hm, by simp [k0', k1']⟩
    rw [List.length_eq_zero_iff.mp (Nat.le_zero.mp hlen)] at hmf
    exact absurd hmf (by simp)
  | succ n ih =>
    intro t u t0 htu u1 hlen ht hu
    by_cases hw : ∃ w, t < w ∧ w < u ∧ lerp s.start s.finish w ∈ c.pts
    · obtain ⟨w, w0, w1, hwc⟩ := hw
      have hwL := hL w (by linarith) (by linarith) hwc
      obtain ⟨δ, d0, hδ⟩ := exists_isolated L w
      set η := min δ (min (w - t) (u - w)) with hη
      have e0 : 0 < η := lt_min d0 (lt_min (by linarith) (by linarith))
      have e1 : η ≤ δ := min_le_left _ _
      have e2 : η ≤ w - t := (min_le_right _ _).trans (min_le_left _ _)
      have e3 : η ≤ u - w := (min_le_right _ _).trans (min_le_right _ _)
      have s1 := seen_along hs hL hδ (u := w - η) (by linarith) (by linarith) (by linarith)
        (by linarith) (by rw [sub_sub_cancel_left, abs_neg, abs_of_pos e0]; exact e1)
      have s2 := seen_along hs hL hδ (u := w + η) (by linarith) (by linarith) (by linarith)
        (by linarith) (by rw [add_sub_cancel_left, abs_of_pos e0]; exact e1)
      have n1 : lerp s.start s.finish (w - η) ∉ c.pts := s1 _ (Segment.finish_mem ⟨_, _⟩) fun h => by
        have := lerp_injective hs h; linarith
      have n2 : lerp s.start s.finish (w + η) ∉ c.pts := s2 _ (Segment.finish_mem ⟨_, _⟩) fun h => by
        have := lerp_injective hs h; linarith
      have len : ∀ {t' u' : K}, t ≤ t' → u' ≤ u → ¬ (t' < w ∧ w < u') →
          (L.filter fun a => decide (t' < a ∧ a < u')).length ≤ n := by
        intro t' u' h1 h2 h3
        have hsub : (L.filter fun a => decide (t' < a ∧ a < u')).length
            < (L.filter fun a => decide (t < a ∧ a < u)).length := by
          rw [← List.countP_eq_length_filter, ← List.countP_eq_length_filter]
          refine countP_lt (P := fun a => decide (t' < a ∧ a < u')) (Q := fun a => decide (t < a ∧ a < u))
            (fun a ha => ?_) (decide_eq_false h3) (decide_eq_true ⟨w0, w1⟩) hwL
          simp only [decide_eq_true_eq] at ha ⊢
          exact ⟨h1.trans_lt ha.1, ha.2.trans_le h2⟩
        omega
      rw [ih t (w - η) t0 (by linarith) (by linarith) (len le_rfl (by linarith) (by rintro ⟨-, h⟩; linarith)) ht n1,
        hb w η e0 (by linarith) (by linarith) hwc s1 s2,
        ih (w + η) u (by linarith) (by linarith) u1 (len (by linarith) le_rfl (by rintro ⟨h, -⟩; linarith)) n2 hu]
    · refine Contour.interior_iff_of_avoids ?_
      rintro z ⟨r, r0, r1, hz⟩ hc
      simp only at hz
      rw [lerp_lerp] at hz
      rw [hz] at hc
      have k0 : t ≤ t + r * (u - t) := by nlinarith
      have k1 : t + r * (u - t) ≤ u := by nlinarith
      have k0' : t < t + r * (u - t) := lt_of_le_of_ne k0 fun h => ht (by rw [← h] at hc; exact hc)
      have k1' : t + r * (u - t) < u := lt_of_le_of_ne k1 fun h => hu (by rw [h] at hc; exact hc)
      exact hw ⟨_, k0', k1', hc⟩

/-! ### crossings -/

/-- The edges at a vertex. -/
theorem Contour.Simple.edges_of_endpoint {c : Contour K} (hs : c.Simple) {e : Segment K}
    (he : e ∈ c.edgeList) {w : Point K} (hw : e.IsEndpoint w) :
    ∃ a b, ⟨a, w⟩ ∈ c.edgeList ∧ ⟨w, b⟩ ∈ c.edgeList := by
  have h2 : 2 ≤ c.vertices.length := by have := hs.three; omega
  obtain ⟨i, hi⟩ := List.mem_iff_getElem?.mp he
  have hlt : i < c.vertices.length := by
    rw [← Contour.length_edgeList]; exact (List.getElem?_eq_some_iff.mp hi).1
  rcases hw with rfl | rfl
  · obtain ⟨j, hj⟩ := c.exists_prev hlt
    obtain ⟨a, v, b, h3, h4⟩ := hj.edges h2
    rw [hi] at h4
    cases h4
    exact ⟨a, b, List.mem_of_getElem? h3, he⟩
  · obtain ⟨j, hj⟩ := c.exists_next hlt
    obtain ⟨a, v, b, h3, h4⟩ := hj.edges h2
    rw [hi] at h3
    cases h3
    exact ⟨a, b, he, List.mem_of_getElem? h4⟩

/-- The segment passes an inner point of an edge or separates the neighbours of a vertex. -/
def Passes (c : Contour K) (s : Segment K) : Prop :=
  (∃ e ∈ c.edgeList, ∃ p ∈ s.pts ∩ e.pts, ¬ s.IsEndpoint p ∧ ¬ e.IsEndpoint p) ∨
    ∃ p v q, ⟨p, v⟩ ∈ c.edgeList ∧ ⟨v, q⟩ ∈ c.edgeList ∧ v ∈ s.pts ∧ ¬ s.IsEndpoint v ∧
      cross s.start s.finish p * cross s.start s.finish q < 0

theorem lerp_back (s : Segment K) (t δ : K) :
    lerp (lerp s.start s.finish t) (lerp s.start s.finish (t + δ)) (-1) = lerp s.start s.finish (t - δ) := by
  rw [lerp_lerp]; congr 1; ring

theorem cross_along (s : Segment K) (t δ : K) (a : Point K) :
    cross (lerp s.start s.finish t) (lerp s.start s.finish (t + δ)) a = δ * cross s.start s.finish a := by
  simp only [cross, lerp]; ring

theorem mul_neg_along {δ : K} (h : 0 < δ) (x y : K) : δ * x * (δ * y) < 0 ↔ x * y < 0 := by
  have : δ * x * (δ * y) = (δ * δ) * (x * y) := by ring
  rw [this]
  have h2 : 0 < δ * δ := mul_pos h h
  constructor
  · intro h'; by_contra hn; nlinarith
  · intro h'; nlinarith

theorem Segment.inner_param {s : Segment K} {p : Point K} (hp : p ∈ s.pts) (hn : ¬ s.IsEndpoint p) :
    ∃ t, 0 < t ∧ t < 1 ∧ p = lerp s.start s.finish t := by
  obtain ⟨t, t0, t1, rfl⟩ := hp
  refine ⟨t, lt_of_le_of_ne t0 fun h => hn (.inl ?_), lt_of_le_of_ne t1 fun h => hn (.inr ?_), rfl⟩
  · rw [← h, lerp_zero]
  · rw [h, lerp_one]

theorem not_endpoint_of_param {s : Segment K} (hs : s.Nondegenerate) {t : K} (t0 : 0 < t) (t1 : t < 1) :
    ¬ s.IsEndpoint (lerp s.start s.finish t) := by
  rintro (h | h)
  · exact t0.ne (lerp_injective hs ((lerp_zero _ _).trans h.symm))
  · exact t1.ne (lerp_injective hs (h.trans (lerp_one _ _).symm))

/-- Segments which pass nothing stay on one side. -/
theorem Contour.Simple.bounces {c : Contour K} (hc : c.Simple) {s : Segment K} (hs : s.Nondegenerate)
    (h : ¬ Passes c s) : Bounces c s := by
  intro t δ d0 h0 h1 hm s1 s2
  have hn := not_endpoint_of_param hs (t := t) (by linarith) (by linarith)
  have hts : lerp s.start s.finish t ∈ s.pts := ⟨t, by linarith, by linarith, rfl⟩
  obtain ⟨e, he, hpe⟩ := hm
  have hend : e.IsEndpoint (lerp s.start s.finish t) := by
    by_contra hne
    exact h (.inl ⟨e, he, _, ⟨hts, hpe⟩, hn, hne⟩)
  obtain ⟨a, b, ha, hb⟩ := hc.edges_of_endpoint he hend
  have hneg : ¬ cross s.start s.finish a * cross s.start s.finish b < 0 := fun hneg =>
    h (.inr ⟨a, _, b, ha, hb, hts, hn, hneg⟩)
  have hne : lerp s.start s.finish t ≠ lerp s.start s.finish (t + δ) := fun he => by
    have := lerp_injective hs he; linarith
  have := hc.pass_vertex ha hb hne (k := -1) (by norm_num) s2 (by rw [lerp_back]; exact s1)
  rw [lerp_back, cross_along, cross_along, mul_neg_along d0] at this
  exact (this.mpr hneg).symm

/-- Segments which pass something have points on both sides. -/
theorem Contour.Simple.passes {c : Contour K} (hc : c.Simple) {s : Segment K} (hs : s.Nondegenerate)
    (hsub : ∀ e ∈ c.edgeList, (s.pts ∩ e.pts).Subsingleton) (h : Passes c s) :
    (s.pts ∩ c.interior).Nonempty ∧ (s.pts ∩ c.exterior).Nonempty := by
  obtain ⟨L, hL⟩ := exists_contacts s hs c.edgeList hsub
  change ∀ t, 0 ≤ t → t ≤ 1 → lerp s.start s.finish t ∈ c.pts → t ∈ L at hL
  have key : ∀ p, p ∈ s.pts → ¬ s.IsEndpoint p → (∀ t δ, 0 < δ → 0 ≤ t - δ → t + δ ≤ 1 → p = lerp s.start s.finish t →
      Seen c p (lerp s.start s.finish (t - δ)) → Seen c p (lerp s.start s.finish (t + δ)) →
      (lerp s.start s.finish (t + δ) ∈ c.interior ↔ lerp s.start s.finish (t - δ) ∉ c.interior)) →
      (s.pts ∩ c.interior).Nonempty ∧ (s.pts ∩ c.exterior).Nonempty := by
    intro p hp hn hk
    obtain ⟨t, t0, t1, rfl⟩ := Segment.inner_param hp hn
    obtain ⟨δ, d0, hδ⟩ := exists_isolated L t
    set η := min δ (min t (1 - t)) with hη
    have e0 : 0 < η := lt_min d0 (lt_min (by linarith) (by linarith))
    have e1 : η ≤ δ := min_le_left _ _
    have e2 : η ≤ t := (min_le_right _ _).trans (min_le_left _ _)
    have e3 : η ≤ 1 - t := (min_le_right _ _).trans (min_le_right _ _)
    have s1 := seen_along hs hL hδ (u := t - η) (by linarith) (by linarith) (by linarith)
      (by linarith) (by rw [sub_sub_cancel_left, abs_neg, abs_of_pos e0]; exact e1)
    have s2 := seen_along hs hL hδ (u := t + η) (by linarith) (by linarith) (by linarith)
      (by linarith) (by rw [add_sub_cancel_left, abs_of_pos e0]; exact e1)
    have n1 : lerp s.start s.finish (t - η) ∉ c.pts := s1 _ (Segment.finish_mem ⟨_, _⟩) fun h => by
      have := lerp_injective hs h; linarith
    have n2 : lerp s.start s.finish (t + η) ∉ c.pts := s2 _ (Segment.finish_mem ⟨_, _⟩) fun h => by
      have := lerp_injective hs h; linarith
    have m1 : lerp s.start s.finish (t - η) ∈ s.pts := ⟨_, by linarith, by linarith, rfl⟩
    have m2 : lerp s.start s.finish (t + η) ∈ s.pts := ⟨_, by linarith, by linarith, rfl⟩
    have := hk t η e0 (by linarith) (by linarith) rfl s1 s2
    by_cases hi : lerp s.start s.finish (t + η) ∈ c.interior
    · exact ⟨⟨_, m2, hi⟩, ⟨_, m1, (Contour.cover n1).resolve_left (this.mp hi)⟩⟩
    · have hi' : lerp s.start s.finish (t - η) ∈ c.interior := by
        by_contra h; exact hi (this.mpr h)
      exact ⟨⟨_, m1, hi'⟩, ⟨_, m2, (Contour.cover n2).resolve_left hi⟩⟩
  rcases h with ⟨e, he, p, hp, hn, hend⟩ | ⟨a, v, b, ha, hb, hv, hn, hneg⟩
  · refine key p hp.1 hn fun t δ d0 h0 h1 hpt s1 s2 => ?_
    have hne : p ≠ lerp s.start s.finish (t + δ) := fun he => by
      have := lerp_injective hs (hpt.symm.trans he); linarith
    have hback : lerp p (lerp s.start s.finish (t + δ)) (-1) = lerp s.start s.finish (t - δ) := by
      rw [hpt]; exact lerp_back ..
    have := hc.pass_edge he hp.2 hend hne (k := -1) (by norm_num) s2 (by rw [hback]; exact s1)
    rwa [hback] at this
  · refine key v hv hn fun t δ d0 h0 h1 hpt s1 s2 => ?_
    have hne : v ≠ lerp s.start s.finish (t + δ) := fun he => by
      have := lerp_injective hs (hpt.symm.trans he); linarith
    have hback : lerp v (lerp s.start s.finish (t + δ)) (-1) = lerp s.start s.finish (t - δ) := by
      rw [hpt]; exact lerp_back ..
    have := hc.pass_vertex ha hb hne (k := -1) (by norm_num) s2 (by rw [hback]; exact s1)
    rw [hback] at this
    have hcr : ∀ a, cross v (lerp s.start s.finish (t + δ)) a = δ * cross s.start s.finish a := by
      intro a; rw [hpt]; exact cross_along ..
    rw [hcr, hcr, mul_neg_along d0] at this
    have := mt this.mp (not_not.mpr hneg)
    by_cases h1 : lerp s.start s.finish (t + δ) ∈ c.interior <;>
      by_cases h2 : lerp s.start s.finish (t - δ) ∈ c.interior <;> simp [h1, h2] at this ⊢

/-- A segment without common pieces stays on one side of what it does not pass. -/
theorem Contour.Simple.same_side {c : Contour K} (hc : c.Simple) {s : Segment K} (hs : s.Nondegenerate)
    (hsub : ∀ e ∈ c.edgeList, (s.pts ∩ e.pts).Subsingleton) (h : ¬ Passes c s) {x y : Point K}
    (hx : x ∈ s.pts) (hy : y ∈ s.pts) (hxc : x ∉ c.pts) (hyc : y ∉ c.pts) :
    x ∈ c.interior ↔ y ∈ c.interior := by
  obtain ⟨L, hL⟩ := exists_contacts s hs c.edgeList hsub
  obtain ⟨t, t0, t1, rfl⟩ := hx
  obtain ⟨u, u0, u1, rfl⟩ := hy
  rcases le_total t u with h' | h'
  · exact Bounces.same_side hs hL (hc.bounces hs h) _ t u t0 h' u1 le_rfl hxc hyc
  · exact (Bounces.same_side hs hL (hc.bounces hs h) _ u t u0 h' t1 le_rfl hyc hxc).symm

/-- From the beginning of a segment some point of it is seen. -/
theorem exists_seen {c : Contour K} {s : Segment K} (hs : s.Nondegenerate)
    (hsub : ∀ e ∈ c.edgeList, (s.pts ∩ e.pts).Subsingleton) :
    ∃ r, 0 < r ∧ r ≤ 1 ∧ Seen c s.start (lerp s.start s.finish r) := by
  obtain ⟨L, hL⟩ := exists_contacts s hs c.edgeList hsub
  obtain ⟨δ, d0, hδ⟩ := exists_isolated L 0
  refine ⟨min δ 1, lt_min d0 one_pos, min_le_right _ _, ?_⟩
  have := seen_along hs hL hδ (u := min δ 1) le_rfl zero_le_one (lt_min d0 one_pos).le (min_le_right _ _)
    (by rw [sub_zero, abs_of_pos (lt_min d0 one_pos)]; exact min_le_left _ _)
  rwa [lerp_zero] at this

end Orient
