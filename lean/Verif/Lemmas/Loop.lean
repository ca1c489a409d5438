import Verif.Lemmas.Germ
import Verif.Lemmas.SimpleEdges

/-! A simple contour contains no other simple contour. -/

set_option linter.unusedSectionVars false

namespace Orient

variable {K : Type} [Field K] [LinearOrder K] [IsStrictOrderedRing K]

open Segment

/-- The points of a line which are on a segment form an interval. -/
theorem exists_interval {p a : Point K} (h : p ≠ a) (t : Segment K) :
    ∃ lo hi : K, ∀ u, lerp p a u ∈ t.pts ↔ lo ≤ u ∧ u ≤ hi := by
  by_cases hcol : cross p a t.start = 0 ∧ cross p a t.finish = 0
  · obtain ⟨α, hα⟩ := exists_lerp_of_cross_eq_zero h hcol.1
    obtain ⟨β, hβ⟩ := exists_lerp_of_cross_eq_zero h hcol.2
    have key : ∀ u, lerp p a u ∈ t.pts ↔ ∃ w, 0 ≤ w ∧ w ≤ 1 ∧ u = α + w * (β - α) := by
      intro u
      constructor
      · rintro ⟨w, h0, h1, hw⟩
        rw [hα, hβ, lerp_lerp] at hw
        exact ⟨w, h0, h1, lerp_injective h hw⟩
      · rintro ⟨w, h0, h1, rfl⟩
        exact ⟨w, h0, h1, by rw [hα, hβ, lerp_lerp]⟩
    refine ⟨min α β, max α β, fun u => ?_⟩
    rw [key]
    constructor
    · rintro ⟨w, h0, h1, rfl⟩
      rcases le_total α β with hab | hab
      · rw [min_eq_left hab, max_eq_right hab]
        constructor <;> nlinarith
      · rw [min_eq_right hab, max_eq_left hab]
        constructor <;> nlinarith
    · rintro ⟨h0, h1⟩
      rcases eq_or_ne α β with rfl | hne
      · rw [min_self] at h0; rw [max_self] at h1
        exact ⟨0, le_rfl, zero_le_one, by rw [le_antisymm h1 h0]; ring⟩
      · have hd : β - α ≠ 0 := sub_ne_zero.mpr hne.symm
        refine ⟨(u - α) / (β - α), ?_, ?_, by field_simp; ring⟩
        · rcases le_total α β with hab | hab
          · rw [min_eq_left hab] at h0
            exact div_nonneg (by linarith) (by linarith)
          · rw [max_eq_left hab] at h1
            exact div_nonneg_of_nonpos (by linarith) (by linarith)
        · rcases lt_or_gt_of_ne hne with hab | hab
          · rw [div_le_one (by linarith)]
            rw [max_eq_right hab.le] at h1; linarith
          · rw [div_le_one_of_neg (by linarith)]
            rw [min_eq_right hab.le] at h0; linarith
  · have uniq : ∀ u w, lerp p a u ∈ t.pts → lerp p a w ∈ t.pts → u = w := by
      intro u w hu hw
      by_contra hne
      apply hcol
      have hne' : lerp p a u ≠ lerp p a w := fun e => hne (lerp_injective h e)
      by_cases ht : t.start = t.finish
      · exfalso
        apply hne'
        obtain ⟨x, -, -, hx⟩ := hu
        obtain ⟨y, -, -, hy⟩ := hw
        rw [hx, hy, ht]
        simp [lerp]
      have e := cross_eq_zero_iff_of_collinear ht hne' (Segment.cross_eq_zero hu)
        (Segment.cross_eq_zero hw)
      have e2 := cross_eq_zero_iff_of_collinear h hne' (cross_lerp_self p a u)
        (cross_lerp_self p a w)
      exact ⟨(e2 _).mp ((e _).mpr (cross_self_right _ _)), (e2 _).mp ((e _).mpr (cross_same _ _))⟩
    by_cases hex : ∃ u, lerp p a u ∈ t.pts
    · obtain ⟨u, hu⟩ := hex
      refine ⟨u, u, fun w => ⟨fun hw => ?_, fun hw => ?_⟩⟩
      · rw [uniq w u hw hu]; exact ⟨le_rfl, le_rfl⟩
      · rw [le_antisymm hw.2 hw.1]; exact hu
    · refine ⟨1, 0, fun w => ⟨fun hw => absurd ⟨w, hw⟩ hex, fun hw => ?_⟩⟩
      exact absurd (hw.1.trans hw.2) (not_le.mpr one_pos)

/-- The last point of a way on a list of segments. -/
theorem exists_last {p a : Point K} (h : p ≠ a) : ∀ (l : List (Segment K)),
    (∃ u, 0 ≤ u ∧ u ≤ 1 ∧ lerp p a u ∈ segsPts l) →
    ∃ u, 0 ≤ u ∧ u ≤ 1 ∧ lerp p a u ∈ segsPts l ∧
      ∀ w, w ≤ 1 → lerp p a w ∈ segsPts l → w ≤ u := by
  intro l
  induction l with
  | nil => rintro ⟨u, -, -, t, ht, -⟩; simp at ht
  | cons t l ih =>
    rintro ⟨u, u0, u1, t', ht', hu⟩
    obtain ⟨lo, hi, hI⟩ := exists_interval h t
    have split : ∀ w, lerp p a w ∈ segsPts (t :: l) ↔
        (lo ≤ w ∧ w ≤ hi) ∨ lerp p a w ∈ segsPts l := by
      intro w
      rw [← hI]
      unfold segsPts
      simp
    by_cases h1 : ∃ u, 0 ≤ u ∧ u ≤ 1 ∧ lerp p a u ∈ segsPts l
    · obtain ⟨v, v0, v1, hv, hmax⟩ := ih h1
      by_cases h2 : v < min hi 1 ∧ lo ≤ min hi 1
      · refine ⟨min hi 1, v0.trans h2.1.le, min_le_right _ _, ?_, fun w w1 hw => ?_⟩
        · rw [split]; exact .inl ⟨h2.2, min_le_left _ _⟩
        · rw [split] at hw
          rcases hw with hw | hw
          · exact le_min hw.2 w1
          · exact (hmax w w1 hw).trans h2.1.le
      · refine ⟨v, v0, v1, (split v).mpr (.inr hv), fun w w1 hw => ?_⟩
        rw [split] at hw
        rcases hw with hw | hw
        · by_contra hlt
          exact h2 ⟨(not_le.mp hlt).trans_le (le_min hw.2 w1), hw.1.trans (le_min hw.2 w1)⟩
        · exact hmax w w1 hw
    · have hnot : ∀ w, 0 ≤ w → w ≤ 1 → lerp p a w ∉ segsPts l := fun w w0 w1 hw => h1 ⟨w, w0, w1, hw⟩
      have hu : lo ≤ u ∧ u ≤ hi := by
        rcases (split u).mp ⟨t', ht', hu⟩ with h | h
        · exact h
        · exact absurd h (hnot u u0 u1)
      have hle : u ≤ min hi 1 := le_min hu.2 u1
      refine ⟨min hi 1, u0.trans hle, min_le_right _ _, (split _).mpr (.inl ⟨hu.1.trans hle,
        min_le_left _ _⟩), fun w w1 hw => ?_⟩
      rcases (split w).mp hw with h | h
      · exact le_min h.2 w1
      · by_cases w0 : 0 ≤ w
        · exact absurd h (hnot w w0 w1)
        · exact (not_le.mp w0).le.trans (u0.trans hle)

/-- A list of segments which can always be continued along a segment contains its end. -/
theorem mem_of_continued {p a : Point K} {l : List (Segment K)} (hp : p ∈ segsPts l)
    (h : ∀ y ∈ (⟨p, a⟩ : Segment K).pts, y ∈ segsPts l → y ≠ a →
      ∃ b, b ≠ y ∧ b ∈ (⟨y, a⟩ : Segment K).pts ∧ b ∈ segsPts l) : a ∈ segsPts l := by
  by_cases hpa : p = a
  · exact hpa ▸ hp
  obtain ⟨u, u0, u1, hu, hmax⟩ := exists_last hpa l ⟨0, le_rfl, zero_le_one, by rwa [lerp_zero]⟩
  by_cases hy : lerp p a u = a
  · exact hy ▸ hu
  obtain ⟨b, hb, ⟨w, w0, w1, rfl⟩, hbl⟩ := h _ ⟨u, u0, u1, rfl⟩ hu hy
  exfalso
  simp only at hb hbl
  have e : lerp (lerp p a u) a w = lerp p a (u + w * (1 - u)) := by
    conv_lhs => rw [show lerp (lerp p a u) a w = lerp (lerp p a u) (lerp p a 1) w by rw [lerp_one]]
    rw [lerp_lerp]
  rw [e] at hb hbl
  have hle := hmax _ (by nlinarith) hbl
  have hge : 0 ≤ w * (1 - u) := mul_nonneg w0 (by linarith)
  exact hb (by rw [le_antisymm hle (by linarith)])

/-- The ways from `z` to `a` and to `b` begin together. -/
def Together (z a b : Point K) : Prop :=
  ∃ x, x ≠ z ∧ x ∈ (⟨z, a⟩ : Segment K).pts ∧ x ∈ (⟨z, b⟩ : Segment K).pts

/-- From a point of a simple contour it goes into two directions. -/
theorem Contour.Simple.two {c : Contour K} (hc : c.Simple) {z : Point K} (hz : z ∈ c.pts) :
    ∃ a b, a ≠ z ∧ b ≠ z ∧ (⟨z, a⟩ : Segment K).pts ⊆ c.pts ∧ (⟨z, b⟩ : Segment K).pts ⊆ c.pts ∧
      ¬ Together z a b := by
  obtain ⟨e, he, hm⟩ := hz
  by_cases hend : e.IsEndpoint z
  · have h2 : 2 ≤ c.vertices.length := by have := hc.three; omega
    obtain ⟨i, hi, hie⟩ := List.mem_iff_getElem.mp he
    have hi' : i < c.vertices.length := by rwa [length_edgeList] at hi
    have hei : c.edgeList[i]? = some e := by rw [List.getElem?_eq_getElem hi, hie]
    obtain ⟨p, n, h1, h3⟩ : ∃ p n, (⟨p, z⟩ : Segment K) ∈ c.edgeList ∧
        (⟨z, n⟩ : Segment K) ∈ c.edgeList := by
      rcases hend with rfl | rfl
      · obtain ⟨j, hj⟩ := c.exists_prev hi'
        obtain ⟨p, v, n, k1, k2⟩ := hj.edges h2
        rw [hei] at k2
        cases k2
        exact ⟨p, n, List.mem_of_getElem? k1, he⟩
      · obtain ⟨j, hj⟩ := c.exists_next hi'
        obtain ⟨p, v, n, k1, k2⟩ := hj.edges h2
        rw [hei] at k1
        cases k1
        exact ⟨p, n, he, List.mem_of_getElem? k2⟩
    refine ⟨p, n, hc.nondegenerate h1, (hc.nondegenerate h3).symm, ?_, ?_, ?_⟩
    · rw [← Segment.pts_reverse]
      exact subset_segsPts h1
    · exact subset_segsPts h3
    · rintro ⟨x, hx, h4, h5⟩
      rw [← Segment.pts_reverse] at h4
      have h4 : x ∈ (⟨p, z⟩ : Segment K).pts := h4
      obtain ⟨i, hi⟩ := List.mem_iff_getElem?.mp h1
      obtain ⟨j, hj⟩ := List.mem_iff_getElem?.mp h3
      have hij : i ≠ j := by
        rintro rfl
        rw [hi] at hj
        cases hj
        exact hc.nondegenerate h1 rfl
      obtain ⟨k1, k2⟩ := hc.meet_getElem hi hj hij h4 h5
      rcases k1 with rfl | k1
      · rcases k2 with k2 | k2
        · exact hx k2
        · simp only at k2 hx
          subst k2
          rcases hc.next_of_common hi hj hij (p := x) (.inl rfl) (.inr rfl) with ⟨-, k, -⟩ | ⟨hn, -, -⟩
          · exact hx k
          · rcases hc.next_of_common hi hj hij (p := z) (.inr rfl) (.inl rfl) with ⟨hn', -, -⟩ | ⟨-, k, -⟩
            · have := hc.three
              unfold Contour.Next at hn hn'
              omega
            · exact hx k.symm
      · exact hx k1
  · have hs : z ≠ e.start := fun h => hend (.inl h)
    have hf : z ≠ e.finish := fun h => hend (.inr h)
    refine ⟨e.start, e.finish, hs.symm, hf.symm, (Segment.pts_subset hm e.start_mem).trans
      (subset_segsPts he), (Segment.pts_subset hm e.finish_mem).trans (subset_segsPts he), ?_⟩
    rintro ⟨x, hx, ⟨u, u0, u1, h1⟩, ⟨w, w0, w1, h2⟩⟩
    obtain ⟨t, t0, t1, rfl⟩ := hm
    have e1 : x = lerp e.start e.finish (t + u * (0 - t)) := by rw [h1, ← lerp_lerp, lerp_zero]
    have e2 : x = lerp e.start e.finish (t + w * (1 - t)) := by rw [h2, ← lerp_lerp, lerp_one]
    have e3 := lerp_injective (hc.nondegenerate he) (e1.symm.trans e2)
    refine hx ?_
    rw [e1]
    congr 1
    nlinarith [mul_nonneg u0 t0, mul_nonneg w0 (sub_nonneg.mpr t1)]

theorem Together.mono {z a b a' b' : Point K} (h : Together z a' b')
    (ha : a' ∈ (⟨z, a⟩ : Segment K).pts) (hb : b' ∈ (⟨z, b⟩ : Segment K).pts) : Together z a b := by
  obtain ⟨x, hx, h1, h2⟩ := h
  exact ⟨x, hx, Segment.pts_subset (Segment.start_mem _) ha h1,
    Segment.pts_subset (Segment.start_mem _) hb h2⟩

theorem Together.symm {z a b : Point K} (h : Together z a b) : Together z b a := by
  obtain ⟨x, hx, h1, h2⟩ := h
  exact ⟨x, hx, h2, h1⟩

/-- Points of a segment at the same side of `z`. -/
theorem together_of_mul_pos {p q : Point K} (hpq : p ≠ q) {τ β γ : K} (h : 0 < (β - τ) * (γ - τ)) :
    Together (lerp p q τ) (lerp p q β) (lerp p q γ) := by
  have h1 : β - τ ≠ 0 := by rintro e; rw [e] at h; simp at h
  have h2 : γ - τ ≠ 0 := by rintro e; rw [e] at h; simp at h
  have key : ∀ β γ : K, 0 < (β - τ) * (γ - τ) → |β - τ| ≤ |γ - τ| → β - τ ≠ 0 → γ - τ ≠ 0 →
      lerp p q β ≠ lerp p q τ ∧ lerp p q β ∈ (⟨lerp p q τ, lerp p q γ⟩ : Segment K).pts := by
    intro β γ h hle h1 h2
    refine ⟨fun e => h1 (by rw [lerp_injective hpq e, sub_self]), (β - τ) / (γ - τ), ?_, ?_, ?_⟩
    · rcases mul_pos_iff.mp h with ⟨a, b⟩ | ⟨a, b⟩
      · exact (div_pos a b).le
      · exact (div_pos_of_neg_of_neg a b).le
    · rcases mul_pos_iff.mp h with ⟨a, b⟩ | ⟨a, b⟩
      · rw [abs_of_pos a, abs_of_pos b] at hle
        rwa [div_le_one b]
      · rw [abs_of_neg a, abs_of_neg b] at hle
        rw [div_le_one_of_neg b]
        linarith
    · simp only
      rw [lerp_lerp]
      congr 1
      field_simp
      ring
  rcases le_total |β - τ| |γ - τ| with hle | hle
  · obtain ⟨k1, k2⟩ := key β γ h hle h1 h2
    exact ⟨_, k1, Segment.finish_mem _, k2⟩
  · obtain ⟨k1, k2⟩ := key γ β (by rwa [mul_comm]) hle h2 h1
    exact ⟨_, k1, k2, Segment.finish_mem _⟩

/-- From a point of a simple contour it does not go into three directions. -/
theorem Contour.Simple.not_three {c : Contour K} (hc : c.Simple) {z : Point K} {w₁ w₂ w₃ : Point K}
    (n₁ : w₁ ≠ z) (n₂ : w₂ ≠ z) (n₃ : w₃ ≠ z) (h₁ : (⟨z, w₁⟩ : Segment K).pts ⊆ c.pts)
    (h₂ : (⟨z, w₂⟩ : Segment K).pts ⊆ c.pts) (h₃ : (⟨z, w₃⟩ : Segment K).pts ⊆ c.pts) :
    Together z w₁ w₂ ∨ Together z w₁ w₃ ∨ Together z w₂ w₃ := by
  obtain ⟨t₁, ht₁, b₁, d₁, m₁, z₁, k₁⟩ := exists_germ_of_subset n₁.symm h₁
  obtain ⟨t₂, ht₂, b₂, d₂, m₂, z₂, k₂⟩ := exists_germ_of_subset n₂.symm h₂
  obtain ⟨t₃, ht₃, b₃, d₃, m₃, z₃, k₃⟩ := exists_germ_of_subset n₃.symm h₃
  suffices h : Together z b₁ b₂ ∨ Together z b₁ b₃ ∨ Together z b₂ b₃ by
    rcases h with h | h | h
    · exact .inl (h.mono m₁ m₂)
    · exact .inr (.inl (h.mono m₁ m₃))
    · exact .inr (.inr (h.mono m₂ m₃))
  obtain ⟨i₁, hi₁⟩ := List.mem_iff_getElem?.mp ht₁
  obtain ⟨i₂, hi₂⟩ := List.mem_iff_getElem?.mp ht₂
  obtain ⟨i₃, hi₃⟩ := List.mem_iff_getElem?.mp ht₃
  have meet : ∀ {i j : Nat} {e f : Segment K}, c.edgeList[i]? = some e → c.edgeList[j]? = some f →
      z ∈ e.pts → z ∈ f.pts → i = j ∨ (e.IsEndpoint z ∧ f.IsEndpoint z) := by
    intro i j e f he hf hz hz'
    by_cases hij : i = j
    · exact .inl hij
    · exact .inr (hc.meet_getElem he hf hij hz hz')
  have same : ∀ {i j : Nat} {e f : Segment K}, c.edgeList[i]? = some e → c.edgeList[j]? = some f →
      i = j → e = f := by
    rintro i j e f he hf rfl
    rw [he] at hf
    exact Option.some.inj hf
  -- two points of an edge which ends in `z`
  have tog : ∀ {i j : Nat} {e f : Segment K} {b b' : Point K}, c.edgeList[i]? = some e →
      c.edgeList[j]? = some f → i = j → e.IsEndpoint z → b ≠ z → b' ≠ z → b ∈ e.pts → b' ∈ f.pts →
      Together z b b' := by
    intro i j e f b b' he hf hij hz hb hb' hm hm'
    obtain rfl := same he hf hij
    have hn : e.Nondegenerate := hc.nondegenerate (List.mem_of_getElem? he)
    obtain ⟨β, β0, β1, rfl⟩ := hm
    obtain ⟨γ, γ0, γ1, rfl⟩ := hm'
    rcases hz with rfl | rfl
    · have b0 : β ≠ 0 := fun h => hb (by rw [h, lerp_zero])
      have c0 : γ ≠ 0 := fun h => hb' (by rw [h, lerp_zero])
      have := together_of_mul_pos hn (τ := 0) (β := β) (γ := γ) (by
        rw [sub_zero, sub_zero]
        exact mul_pos (lt_of_le_of_ne β0 b0.symm) (lt_of_le_of_ne γ0 c0.symm))
      rwa [lerp_zero] at this
    · have b0 : β ≠ 1 := fun h => hb (by rw [h, lerp_one])
      have c0 : γ ≠ 1 := fun h => hb' (by rw [h, lerp_one])
      have := together_of_mul_pos hn (τ := 1) (β := β) (γ := γ) (by
        exact mul_pos_of_neg_of_neg (sub_neg.mpr (lt_of_le_of_ne β1 b0))
          (sub_neg.mpr (lt_of_le_of_ne γ1 c0)))
      rwa [lerp_one] at this
  by_cases hend : t₁.IsEndpoint z
  · have e₂ : t₂.IsEndpoint z := by
      rcases meet hi₁ hi₂ z₁ z₂ with h | h
      · exact same hi₁ hi₂ h ▸ hend
      · exact h.2
    have e₃ : t₃.IsEndpoint z := by
      rcases meet hi₁ hi₃ z₁ z₃ with h | h
      · exact same hi₁ hi₃ h ▸ hend
      · exact h.2
    by_cases h12 : i₁ = i₂
    · exact .inl (tog hi₁ hi₂ h12 hend d₁ d₂ k₁ k₂)
    by_cases h13 : i₁ = i₃
    · exact .inr (.inl (tog hi₁ hi₃ h13 hend d₁ d₃ k₁ k₃))
    by_cases h23 : i₂ = i₃
    · exact .inr (.inr (tog hi₂ hi₃ h23 e₂ d₂ d₃ k₂ k₃))
    exfalso
    have q₁ : t₁.start ≠ t₁.finish := hc.nondegenerate ht₁
    have q₂ : t₂.start ≠ t₂.finish := hc.nondegenerate ht₂
    have q₃ : t₃.start ≠ t₃.finish := hc.nondegenerate ht₃
    rcases hc.next_of_common hi₁ hi₂ h12 hend e₂ with ⟨-, a1, a2⟩ | ⟨-, a1, a2⟩ <;>
    rcases hc.next_of_common hi₁ hi₃ h13 hend e₃ with ⟨-, a3, a4⟩ | ⟨-, a3, a4⟩ <;>
    rcases hc.next_of_common hi₂ hi₃ h23 e₂ e₃ with ⟨-, a5, a6⟩ | ⟨-, a5, a6⟩ <;>
    first
      | exact q₁ (a4.symm.trans a1)
      | exact q₁ (a2.symm.trans a3)
      | exact q₂ (a2.symm.trans a5)
      | exact q₂ (a6.symm.trans a1)
      | exact q₃ (a4.symm.trans a5)
      | exact q₃ (a6.symm.trans a3)
  · have s₂ : t₁ = t₂ := by
      rcases meet hi₁ hi₂ z₁ z₂ with h | h
      · exact same hi₁ hi₂ h
      · exact absurd h.1 hend
    have s₃ : t₁ = t₃ := by
      rcases meet hi₁ hi₃ z₁ z₃ with h | h
      · exact same hi₁ hi₃ h
      · exact absurd h.1 hend
    subst s₂
    subst s₃
    have hn : t₁.Nondegenerate := hc.nondegenerate ht₁
    obtain ⟨τ, -, -, rfl⟩ := z₁
    obtain ⟨β₁, -, -, rfl⟩ := k₁
    obtain ⟨β₂, -, -, rfl⟩ := k₂
    obtain ⟨β₃, -, -, rfl⟩ := k₃
    have f₁ : β₁ - τ ≠ 0 := fun h => d₁ (by rw [sub_eq_zero.mp h])
    have f₂ : β₂ - τ ≠ 0 := fun h => d₂ (by rw [sub_eq_zero.mp h])
    have f₃ : β₃ - τ ≠ 0 := fun h => d₃ (by rw [sub_eq_zero.mp h])
    rcases lt_or_gt_of_ne f₁ with g₁ | g₁ <;> rcases lt_or_gt_of_ne f₂ with g₂ | g₂ <;>
      rcases lt_or_gt_of_ne f₃ with g₃ | g₃ <;>
      first
        | exact .inl (together_of_mul_pos hn (mul_pos g₁ g₂))
        | exact .inl (together_of_mul_pos hn (mul_pos_of_neg_of_neg g₁ g₂))
        | exact .inr (.inl (together_of_mul_pos hn (mul_pos g₁ g₃)))
        | exact .inr (.inl (together_of_mul_pos hn (mul_pos_of_neg_of_neg g₁ g₃)))
        | exact .inr (.inr (together_of_mul_pos hn (mul_pos g₂ g₃)))
        | exact .inr (.inr (together_of_mul_pos hn (mul_pos_of_neg_of_neg g₂ g₃)))

/-- A simple contour inside of a simple contour is all of it. -/
theorem Contour.Simple.pts_eq_of_subset {a b : Contour K} (ha : a.Simple) (hb : b.Simple)
    (h : b.pts ⊆ a.pts) : b.pts = a.pts := by
  -- where `a` goes from a point of `b` there goes `b`
  have go : ∀ z w, z ∈ b.pts → w ≠ z → (⟨z, w⟩ : Segment K).pts ⊆ a.pts →
      ∃ x, x ≠ z ∧ x ∈ (⟨z, w⟩ : Segment K).pts ∧ x ∈ b.pts := by
    intro z w hz hw hs
    obtain ⟨w₁, w₂, n₁, n₂, s₁, s₂, hnot⟩ := hb.two hz
    rcases ha.not_three hw n₁ n₂ hs (s₁.trans h) (s₂.trans h) with ⟨x, h1, h2, h3⟩ |
      ⟨x, h1, h2, h3⟩ | h'
    · exact ⟨x, h1, h2, s₁ h3⟩
    · exact ⟨x, h1, h2, s₂ h3⟩
    · exact absurd h' hnot
  have whole : ∀ e ∈ a.edgeList, (∃ z ∈ e.pts, z ∈ b.pts) → e.pts ⊆ b.pts := by
    rintro e he ⟨z, hz, hzb⟩ w hw
    refine mem_of_continued (p := z) hzb fun y hy hyb hne => ?_
    exact go y w hyb hne.symm ((Segment.pts_subset (Segment.pts_subset hz hw hy) hw).trans
      (subset_segsPts he))
  have h2 : 2 ≤ a.vertices.length := by have := ha.three; omega
  have next : ∀ i j, a.Next i j → (∀ e, a.edgeList[i]? = some e → e.pts ⊆ b.pts) →
      ∀ e, a.edgeList[j]? = some e → e.pts ⊆ b.pts := by
    intro i j hij hi e he
    obtain ⟨p, v, n, k1, k2⟩ := hij.edges h2
    rw [k2] at he
    cases he
    exact whole _ (List.mem_of_getElem? k2) ⟨v, Segment.start_mem _, hi _ k1 (Segment.finish_mem _)⟩
  obtain ⟨z, hz⟩ : ∃ z, z ∈ b.pts := by
    have := hb.three
    have hlen : 0 < b.edgeList.length := by rw [length_edgeList]; omega
    exact ⟨_, _, List.getElem_mem hlen, Segment.start_mem _⟩
  obtain ⟨e, he, hze⟩ := h hz
  obtain ⟨k, hk⟩ := List.mem_iff_getElem?.mp he
  have hk' : k < a.vertices.length := by
    rw [← length_edgeList]; exact (List.getElem?_eq_some_iff.mp hk).1
  have start : ∀ f, a.edgeList[k]? = some f → f.pts ⊆ b.pts := by
    intro f hf
    rw [hk] at hf
    cases hf
    exact whole e he ⟨z, hze, hz⟩
  have up : ∀ i, k ≤ i → i < a.vertices.length → ∀ e, a.edgeList[i]? = some e → e.pts ⊆ b.pts := by
    intro i hi
    induction i, hi using Nat.le_induction with
    | base => exact fun _ => start
    | succ i hi ih => exact fun hlt => next i (i + 1) (.inl ⟨rfl, hlt⟩) (ih (by omega))
  have all : ∀ i, i < a.vertices.length → ∀ e, a.edgeList[i]? = some e → e.pts ⊆ b.pts := by
    intro i
    induction i with
    | zero =>
      intro _
      exact next (a.vertices.length - 1) 0 (.inr ⟨by omega, rfl⟩) (up _ (by omega) (by omega))
    | succ i ih => exact fun hlt => next i (i + 1) (.inl ⟨rfl, hlt⟩) (ih (by omega))
  refine Set.Subset.antisymm h ?_
  rintro x ⟨f, hf, hx⟩
  obtain ⟨j, hj⟩ := List.mem_iff_getElem?.mp hf
  exact all j (by rw [← length_edgeList]; exact (List.getElem?_eq_some_iff.mp hj).1) f hj hx

end Orient
