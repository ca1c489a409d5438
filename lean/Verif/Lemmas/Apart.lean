import Verif.Lemmas.Jordan
import Verif.Lemmas.Loop

/-! Points which are joined without meeting a set, and which have the same location with respect to a
simple contour that has at most one point in common with the set, are joined without meeting both. -/

set_option linter.unusedSectionVars false

namespace Orient

variable {K : Type} [Field K] [LinearOrder K] [IsStrictOrderedRing K]

open Segment

/-- The contour has no common points with the segments, except for its last vertex. -/
structure Beside (ε : K) (c : Contour K) (X : List (Segment K)) : Prop where
  simple : c.Simple
  mono : c.Mono ε
  times : ∀ u ∈ X, u.start.time ε < u.finish.time ε
  only : ∀ z ∈ c.pts, z ∈ segsPts X → c.vertices[c.vertices.length - 1]? = some z

section

variable {ε : K} {c : Contour K} {X : List (Segment K)}

theorem Beside.edge (b : Beside ε c X) {e : Segment K} (he : e ∈ c.edgeList) :
    e.up.start.time ε < e.up.finish.time ε := b.mono.times he (b.simple.nondegenerate he)

/-- Inner points of edges are not vertices. -/
theorem Beside.inner (b : Beside ε c X) {e : Segment K} (he : e ∈ c.edgeList) {z : Point K}
    (hz : z ∈ e.pts) (h1 : e.up.start.time ε < z.time ε) (h2 : z.time ε < e.up.finish.time ε) :
    z ∉ segsPts X := by
  intro hx
  have hl := b.only z ⟨e, he, hz⟩ hx
  have h3 := b.simple.three
  obtain ⟨j, hj⟩ := c.exists_next (i := c.vertices.length - 1) (by omega)
  obtain ⟨p, v, n, k1, k2⟩ := hj.edges (by omega)
  have := Contour.edge_finish c k1
  rw [hl] at this
  obtain rfl : z = v := Option.some.inj this
  obtain ⟨i, hi⟩ := List.mem_iff_getElem?.mp he
  have key : e.IsEndpoint z := by
    by_cases hij : i = c.vertices.length - 1
    · rw [hij, k1] at hi
      cases hi
      exact .inr rfl
    · exact (b.simple.meet_getElem hi k1 hij hz (Segment.finish_mem _)).1
  rcases Segment.up_endpoint.mpr key with h | h
  · rw [h] at h1; exact lt_irrefl _ h1
  · rw [h] at h2; exact lt_irrefl _ h2

theorem Beside.gap (b : Beside ε c X) {e : Segment K} (he : e ∈ c.edgeList) {t₁ t₂ : K} (hlt : t₁ ≤ t₂)
    (l₁ : e.up.start.time ε < t₁) (l₂ : t₂ < e.up.finish.time ε) :
    ∃ δ, 0 < δ ∧ ∀ t, t₁ ≤ t → t ≤ t₂ → ∀ η, η ≠ 0 → |η| ≤ δ →
      col ε t (e.up.height ε t + η) ∉ c.pts ∪ segsPts X := by
  obtain ⟨δ, hδ, h⟩ := exists_gap b.simple b.mono he hlt l₁ l₂
  have hte := b.edge he
  obtain ⟨δ', hδ', hgap⟩ := exists_common_gap (ε := ε) e.up (t₁ := t₁) (t₂ := t₂) X (by
    intro u hu t k1 k2 k3 k4 heq
    have p1 := pointAt_mem hte (l₁.le.trans k1) (k2.trans l₂.le)
    have p2 : e.up.pointAt ε t ∈ u.pts := by
      rw [mem_pts_iff_height (b.times u hu), pointAt_time]
      exact ⟨k3, k4, heq⟩
    rw [Segment.pts_up] at p1
    exact b.inner he p1 (by rw [pointAt_time]; exact l₁.trans_le k1)
      (by rw [pointAt_time]; exact k2.trans_lt l₂) ⟨u, hu, p2⟩)
  refine ⟨min δ δ', lt_min hδ hδ', fun t k1 k2 η hη hle => ?_⟩
  rintro (hm | ⟨u, hu, hm⟩)
  · exact h t k1 k2 η hη (hle.trans (min_le_left _ _)) hm
  · rw [mem_pts_iff_height (b.times u hu), col_time] at hm
    have := hgap u hu t k1 k2 hm.1 hm.2.1
    rw [← hm.2.2] at this
    unfold col at this
    have e' : e.up.height ε t - (e.up.height ε t + η) = -η := by ring
    simp only [e', abs_neg] at this
    exact absurd (hle.trans (min_le_right _ _)) (not_le.mpr this)

theorem Beside.side (b : Beside ε c X) {e : Segment K} (he : e ∈ c.edgeList) {t σ : K}
    (hl : e.up.Live ε t) (hσ : Sign σ) : ∃ p, Side ε (c.pts ∪ segsPts X) e.up t σ p := by
  obtain ⟨δ, hδ, h⟩ := b.gap he le_rfl hl.1 hl.2
  refine ⟨_, hl, δ, hδ, rfl, fun δ' h1 h2 => h t le_rfl le_rfl _ (mul_ne_zero hσ.ne h1.ne') ?_⟩
  rw [abs_mul, hσ.abs, one_mul, abs_of_pos h1]
  exact h2

theorem Beside.steady (b : Beside ε c X) {e : Segment K} (he : e ∈ c.edgeList) {t t' σ : K} (hσ : Sign σ)
    {p q : Point K} (hp : Side ε (c.pts ∪ segsPts X) e.up t σ p)
    (hq : Side ε (c.pts ∪ segsPts X) e.up t' σ q) : Joined (c.pts ∪ segsPts X) p q := by
  wlog h : t ≤ t' generalizing t t' p q
  · exact (this hq hp (le_of_not_ge h)).symm
  obtain ⟨δ, hδ, hg⟩ := b.gap he h hp.1.1 hq.1.2
  have away : ∀ τ, t ≤ τ → τ ≤ t' → ∀ δ', 0 < δ' → δ' ≤ δ →
      col ε τ (e.up.height ε τ + σ * δ') ∉ c.pts ∪ segsPts X := by
    intro τ k1 k2 δ' h1 h2
    refine hg τ k1 k2 _ (mul_ne_zero hσ.ne h1.ne') ?_
    rw [abs_mul, hσ.abs, one_mul, abs_of_pos h1]
    exact h2
  have s1 : Side ε (c.pts ∪ segsPts X) e.up t σ (col ε t (e.up.height ε t + σ * δ)) :=
    ⟨hp.1, δ, hδ, rfl, away t le_rfl h⟩
  have s2 : Side ε (c.pts ∪ segsPts X) e.up t' σ (col ε t' (e.up.height ε t' + σ * δ)) :=
    ⟨hq.1, δ, hδ, rfl, away t' h le_rfl⟩
  refine ((hp.joined s1).trans (joined_leg fun r r0 r1 => ?_)).trans (s2.joined hq)
  have e2 : e.up.height ε t + σ * δ + r * (e.up.height ε t' + σ * δ - (e.up.height ε t + σ * δ))
      = e.up.height ε (t + r * (t' - t)) + σ * δ := by
    rw [height_between]; ring
  rw [e2]
  exact away _ (by nlinarith) (by nlinarith) δ hδ le_rfl

/-! ### around a vertex -/

theorem Prong.shrink {v : Point K} {e : Segment K} {s ρ η ρ' η' : K} (P : Prong ε v e s ρ η)
    (hv : v ∈ e.pts) (h0 : 0 < ρ') (h1 : ρ' ≤ ρ) (h2 : |e.slope ε| * ρ' ≤ η' / 2) :
    Prong ε v e s ρ' η' := by
  have hm := (mem_pts_iff_height P.times v).mp hv
  refine ⟨P.sign, P.times, ?_, P.at_, h2, fun z hz hle => P.only z hz (hle.trans h1)⟩
  obtain ⟨l1, l2⟩ := P.live
  rcases P.sign with rfl | rfl
  · exact ⟨by linarith [hm.1], by linarith⟩
  · exact ⟨by linarith, by linarith [hm.2.1]⟩

theorem Nook.shrink {S : Set (Point K)} {v : Point K} {e f : Segment K} {s s' ρ η : K}
    (N : Nook ε S v e f s s' ρ η) (he : v ∈ e.pts) (hf : v ∈ f.pts)
    (ht : ∀ u ∈ X, u.start.time ε < u.finish.time ε) (hv : v ∉ segsPts X) :
    ∃ ρ' η', Nook ε (S ∪ segsPts X) v e f s s' ρ' η' := by
  obtain ⟨ρ₀, η₀, r0, e0, hbox⟩ := exists_box (ε := ε) v X ht fun u hu h => hv ⟨u, hu, h⟩
  have hη : 0 < min η η₀ := lt_min N.high e0
  have k1 : (0:K) < |e.slope ε| + 1 := by positivity
  have k2 : (0:K) < |f.slope ε| + 1 := by positivity
  obtain ⟨ρ', hρ', hr⟩ : ∃ ρ', ρ' = min (min ρ ρ₀)
    (min (min η η₀ / (2 * (|e.slope ε| + 1))) (min η η₀ / (2 * (|f.slope ε| + 1)))) ∧ 0 < ρ' :=
    ⟨_, rfl, lt_min (lt_min N.pos r0) (lt_min (by positivity) (by positivity))⟩
  have flat : ∀ u : Segment K, ρ' ≤ min η η₀ / (2 * (|u.slope ε| + 1)) →
      |u.slope ε| * ρ' ≤ min η η₀ / 2 := by
    intro u h
    have hs : (0:K) < |u.slope ε| + 1 := by positivity
    calc |u.slope ε| * ρ' ≤ (|u.slope ε| + 1) * (min η η₀ / (2 * (|u.slope ε| + 1))) :=
          mul_le_mul (by linarith) h hr.le hs.le
      _ = min η η₀ / 2 := by field_simp
  have l1 : ρ' ≤ ρ := hρ' ▸ (min_le_left _ _).trans (min_le_left _ _)
  have l2 : ρ' ≤ ρ₀ := hρ' ▸ (min_le_left _ _).trans (min_le_right _ _)
  refine ⟨ρ', min η η₀, hr, hη, N.left.shrink he hr l1 (flat e (hρ' ▸ (min_le_right _ _).trans
    (min_le_left _ _))), N.right.shrink hf hr l1 (flat f (hρ' ▸ (min_le_right _ _).trans
    (min_le_right _ _))), ?_, N.pair⟩
  rintro z (hz | ⟨u, hu, hz⟩) h1 h2
  · exact N.box z hz (h1.trans l1) (h2.trans (min_le_left _ _))
  · exact absurd (h2.trans (min_le_right _ _)) (not_le.mpr (hbox u hu z hz (h1.trans l2)))

theorem Beside.nook (b : Beside ε c X) {i j : Nat} (hn : c.Next i j)
    (hv : ∀ v, c.vertices[i]? = some v → v ∉ segsPts X) :
    ∃ a v b ρ η, c.edgeList[i]? = some ⟨a, v⟩ ∧ c.edgeList[j]? = some ⟨v, b⟩ ∧
      Nook ε (c.pts ∪ segsPts X) v (⟨a, v⟩ : Segment K).up (⟨v, b⟩ : Segment K).up
        (-(⟨a, v⟩ : Segment K).dir) (⟨v, b⟩ : Segment K).dir ρ η := by
  obtain ⟨a, v, w, ρ, η, h1, h2, N⟩ := exists_nook b.simple b.mono hn
  obtain ⟨ρ', η', N'⟩ := N.shrink (by rw [Segment.pts_up]; exact Segment.finish_mem _)
    (by rw [Segment.pts_up]; exact Segment.start_mem _) b.times (hv v (Contour.edge_finish c h1))
  exact ⟨a, v, w, ρ', η', h1, h2, N'⟩

theorem Beside.next (b : Beside ε c X) {i j : Nat} (hn : c.Next i j)
    (hv : ∀ v, c.vertices[i]? = some v → v ∉ segsPts X) {d : K} (hd : Sign d) :
    ∃ e f t t' p q, c.edgeList[i]? = some e ∧
      c.edgeList[j]? = some f ∧ Side ε (c.pts ∪ segsPts X) e.up t (d * e.dir) p ∧
      Side ε (c.pts ∪ segsPts X) f.up t' (d * f.dir) q ∧ Joined (c.pts ∪ segsPts X) p q := by
  obtain ⟨a, v, b, ρ, η, he, hf, N⟩ := b.nook hn hv
  have s1 := Segment.dir_sign (⟨a, v⟩ : Segment K)
  have s2 := Segment.dir_sign (⟨v, b⟩ : Segment K)
  by_cases h : (⟨v, b⟩ : Segment K).dir = (⟨a, v⟩ : Segment K).dir
  · obtain ⟨p, q, h1, h2, h3⟩ := N.through (by rw [h, neg_neg]) (hd.mul s1)
    exact ⟨_, _, _, _, p, q, he, hf, h1, by rw [h] at h2 ⊢; exact h2, h3⟩
  · have h' : (⟨v, b⟩ : Segment K).dir = -(⟨a, v⟩ : Segment K).dir := by
      rcases s1 with e1 | e1 <;> rcases s2 with e2 | e2 <;>
        first | exact absurd (e2.trans e1.symm) h | rw [e1, e2, neg_neg] | rw [e1, e2]
    obtain ⟨p, q, h1, h2, h3⟩ := N.around h' (hd.mul s1)
    exact ⟨_, _, _, _, p, q, he, hf, h1, by rw [h'] at h2 ⊢; rw [mul_neg]; exact h2, h3⟩

/-- The point is next to the contour at its left or right side, and nothing of the set is between. -/
def BankIn (ε : K) (c : Contour K) (S : Set (Point K)) (d : K) (p : Point K) : Prop :=
  ∃ e ∈ c.edgeList, ∃ t, Side ε S e.up t (d * e.dir) p

theorem Beside.bank_joined (b : Beside ε c X) {d : K} (hd : Sign d) {p q : Point K}
    (hp : BankIn ε c (c.pts ∪ segsPts X) d p) (hq : BankIn ε c (c.pts ∪ segsPts X) d q) :
    Joined (c.pts ∪ segsPts X) p q := by
  have key : ∀ (i : Nat) (e e₀ : Segment K), c.edgeList[i]? = some e → c.edgeList[0]? = some e₀ →
      ∀ (t t' : K) (p q : Point K), Side ε (c.pts ∪ segsPts X) e.up t (d * e.dir) p →
        Side ε (c.pts ∪ segsPts X) e₀.up t' (d * e₀.dir) q → Joined (c.pts ∪ segsPts X) p q := by
    intro i
    induction i with
    | zero =>
      intro e e₀ he he₀ t t' p q h1 h2
      rw [he] at he₀
      cases he₀
      exact b.steady (List.mem_of_getElem? he) (hd.mul e.dir_sign) h1 h2
    | succ i ih =>
      intro e e₀ he he₀ t t' p q h1 h2
      have hlt : i + 1 < c.vertices.length := by
        rw [← Contour.length_edgeList]; exact (List.getElem?_eq_some_iff.mp he).1
      obtain ⟨f, e', τ, τ', p', q', k1, k2, k3, k4, k5⟩ := b.next
        (.inl ⟨rfl, hlt⟩ : c.Next i (i + 1)) (by
          intro v hv hx
          obtain ⟨a, v', w, m1, m2⟩ := Contour.Next.edges (.inl ⟨rfl, hlt⟩ : c.Next i (i + 1)) (by omega)
          have hv' := Contour.edge_finish c m1
          rw [hv] at hv'
          obtain rfl : v = v' := Option.some.inj hv'
          have hl := b.only v ⟨_, List.mem_of_getElem? m1, Segment.finish_mem _⟩ hx
          obtain ⟨a1, rfl⟩ := List.getElem?_eq_some_iff.mp hv
          obtain ⟨a2, e2⟩ := List.getElem?_eq_some_iff.mp hl
          have := (List.Nodup.getElem_inj_iff b.simple.nodup).mp e2
          omega) hd
      rw [he] at k2
      cases k2
      exact ((b.steady (List.mem_of_getElem? he) (hd.mul e.dir_sign) h1 k4).trans k5.symm).trans
        (ih f e₀ k1 he₀ τ t' p' q k3 h2)
  obtain ⟨e, he, t, h1⟩ := hp
  obtain ⟨f, hf, t', h2⟩ := hq
  obtain ⟨i, hi⟩ := List.mem_iff_getElem?.mp he
  obtain ⟨j, hj⟩ := List.mem_iff_getElem?.mp hf
  have h0 : 0 < c.edgeList.length := List.length_pos_of_mem he
  obtain ⟨e₀, he₀⟩ : ∃ e₀, c.edgeList[0]? = some e₀ := ⟨_, List.getElem?_eq_getElem h0⟩
  obtain ⟨t₀, l₀, -⟩ := exists_free_live b.simple b.mono (List.mem_of_getElem? he₀)
  obtain ⟨x, hx⟩ := b.side (List.mem_of_getElem? he₀) l₀ (hd.mul e₀.dir_sign)
  exact (key i e e₀ hi he₀ t t₀ p x h1 hx).trans (key j f e₀ hj he₀ t' t₀ q x h2 hx).symm

end

/-! ### from a nearby point to the contour -/

section

variable {ε : K} {S : Set (Point K)} {v : Point K} {e f : Segment K} {s s' ρ η : K}

theorem Sign.cases {σ τ : K} (h : Sign σ) (h' : Sign τ) : τ = σ ∨ τ = -σ := by
  rcases h with rfl | rfl <;> rcases h' with rfl | rfl <;> simp

theorem exists_sign {a : K} (h : a ≠ 0) : ∃ σ, Sign σ ∧ a = σ * |a| := by
  rcases lt_or_gt_of_ne h with h0 | h0
  · exact ⟨-1, .inr rfl, by rw [abs_of_neg h0]; ring⟩
  · exact ⟨1, .inl rfl, by rw [abs_of_pos h0]; ring⟩

theorem Prong.live_at (P : Prong ε v e s ρ η) (hv : v ∈ e.pts) {τ : K} (h1 : |τ - v.time ε| ≤ ρ)
    (h2 : 0 < s * (τ - v.time ε)) : e.Live ε τ := by
  have hm := (mem_pts_iff_height P.times v).mp hv
  obtain ⟨l1, l2⟩ := P.live
  have ha := abs_le.mp h1
  rcases P.sign with rfl | rfl
  · exact ⟨by linarith [hm.1], by linarith⟩
  · exact ⟨by linarith, by linarith [hm.2.1]⟩

/-- From a point at the side of the first segment. -/
theorem Nook.reach_side (N : Nook ε S v e f s s' ρ η) (he : v ∈ e.pts) (hf : v ∈ f.pts)
    (se : e.pts ⊆ S) (sf : f.pts ⊆ S) {τ y : K} (h1 : |τ - v.time ε| ≤ ρ) (h2 : |y - v.y| ≤ η)
    (hx : col ε τ y ∉ S) (hs : 0 < s * (τ - v.time ε)) :
    ∃ σ, Sign σ ∧ (Side ε S e τ σ (col ε τ y) ∨ Side ε S f τ σ (col ε τ y)) := by
  have le := N.left.live_at he h1 hs
  have b1 := abs_le.mp (N.left.bound h1)
  have b2 := abs_le.mp h2
  have hη := N.high
  have on : ∀ {g : Segment K}, g.Live ε τ → g.start.time ε < g.finish.time ε →
      col ε τ (g.height ε τ) ∈ g.pts := by
    intro g lg tg
    rw [mem_pts_iff_height tg, col_time]
    exact ⟨lg.1.le, lg.2.le, rfl⟩
  have height : ∀ {g : Segment K} {h : K}, g.start.time ε < g.finish.time ε → col ε τ h ∈ g.pts →
      h = g.height ε τ := by
    intro g h tg hm
    rw [mem_pts_iff_height tg, col_time] at hm
    exact hm.2.2
  have hne : y - e.height ε τ ≠ 0 := by
    intro h0
    have : y = e.height ε τ := by linarith
    exact hx (this ▸ se (on le N.left.times))
  obtain ⟨σ, hσ, hσd⟩ := exists_sign hne
  set δ₀ := |y - e.height ε τ| with hδ₀
  have p0 : 0 < δ₀ := abs_pos.mpr hne
  have hy : y = e.height ε τ + σ * δ₀ := by linarith
  have box : ∀ δ, 0 < δ → δ ≤ δ₀ → col ε τ (e.height ε τ + σ * δ) ∈ S →
      col ε τ (e.height ε τ + σ * δ) ∈ f.pts := by
    intro δ d0 d1 hm
    refine (N.box _ hm (by rwa [col_time]) ?_).resolve_left ?_
    · change |e.height ε τ + σ * δ - v.y| ≤ η
      rw [abs_le]
      rcases hσ with h | h <;> rw [h] at hy ⊢ <;> constructor <;> linarith
    · intro hm'
      have := height N.left.times hm'
      exact mul_ne_zero hσ.ne d0.ne' (by linarith)
  by_cases hb : ∃ δ, 0 < δ ∧ δ ≤ δ₀ ∧ col ε τ (e.height ε τ + σ * δ) ∈ f.pts
  · obtain ⟨δ, d0, d1, hm⟩ := hb
    have hlt : δ < δ₀ := lt_of_le_of_ne d1 fun e' => hx (by rw [hy, ← e']; exact sf hm)
    have hfh := height N.right.times hm
    have ss : s' = s := by
      rcases N.left.sign.cases N.right.sign with h | h
      · exact h
      · have := N.right.only _ hm (by rwa [col_time])
        rw [col_time, h] at this
        linarith
    have lf := N.right.live_at hf h1 (ss ▸ hs)
    refine ⟨σ, hσ, .inr ⟨lf, δ₀ - δ, by linarith, ?_, fun δ' k0 k1 hm' => ?_⟩⟩
    · rw [← hfh, hy]; congr 1; ring
    · have e1 : f.height ε τ + σ * δ' = e.height ε τ + σ * (δ + δ') := by rw [← hfh]; ring
      rw [e1] at hm'
      have := height N.right.times (box _ (by linarith) (by linarith) hm')
      rw [← hfh] at this
      have := mul_left_cancel₀ hσ.ne (add_left_cancel this)
      linarith
  · exact ⟨σ, hσ, .inl ⟨le, δ₀, p0, by rw [← hy], fun δ d0 d1 hm => hb ⟨δ, d0, d1, box δ d0 d1 hm⟩⟩⟩

theorem Nook.reach (N : Nook ε S v e f s s' ρ η) (he : v ∈ e.pts) (hf : v ∈ f.pts)
    (se : e.pts ⊆ S) (sf : f.pts ⊆ S) {x : Point K} (h1 : |x.time ε - v.time ε| ≤ ρ)
    (h2 : |x.y - v.y| ≤ η) (hx : x ∉ S) :
    ∃ σ t q, Sign σ ∧ (Side ε S e t σ q ∨ Side ε S f t σ q) ∧ Joined S x q := by
  have hη := N.high
  have hρ := N.pos
  rw [← col_self ε x] at hx
  obtain ⟨τ, hτ⟩ : ∃ τ, τ = x.time ε := ⟨_, rfl⟩
  obtain ⟨y, hy⟩ : ∃ y, y = x.y := ⟨_, rfl⟩
  rw [← hτ, ← hy] at hx
  rw [← hτ] at h1
  rw [← hy] at h2
  have ex : x = col ε τ y := by rw [hτ, hy, col_self]
  rw [ex]
  rcases lt_or_ge 0 (s * (τ - v.time ε)) with hs | hs
  · obtain ⟨σ, hσ, h⟩ := N.reach_side he hf se sf h1 h2 hx hs
    exact ⟨σ, τ, _, hσ, h, .refl⟩
  rcases lt_or_ge 0 (s' * (τ - v.time ε)) with hs' | hs'
  · obtain ⟨σ, hσ, h⟩ := N.swap.reach_side hf he sf se h1 h2 hx hs'
    exact ⟨σ, τ, _, hσ, h.symm, .refl⟩
  have hyv : τ = v.time ε → y - v.y ≠ 0 := by
    intro e1 e2
    have : col ε τ y = v := by
      rw [e1, show y = v.y by linarith, col_self]
    exact hx (this ▸ se he)
  rcases N.left.sign.cases N.right.sign with ho | ho
  · -- both at the other side
    subst ho
    have off : ∀ τ' y', s' * (τ' - v.time ε) ≤ 0 → |τ' - v.time ε| ≤ ρ → |y' - v.y| ≤ η →
        (τ' = v.time ε → y' ≠ v.y) → col ε τ' y' ∉ S := by
      intro τ' y' k1 k2 k3 k4 hm
      have : ∀ {g : Segment K}, Prong ε v g s' ρ η → col ε τ' y' ∉ g.pts := by
        intro g P hg
        have h3 := P.only _ hg (by rwa [col_time])
        rw [col_time] at h3
        have h4 : s' * (τ' - v.time ε) = 0 := le_antisymm k1 h3
        have h5 : τ' = v.time ε := by
          have := (mul_eq_zero.mp h4).resolve_left P.sign.ne
          linarith
        have h6 := P.mem_iff hg
        rw [col_time, h5, sub_self, mul_zero, add_zero] at h6
        exact k4 h5 h6
      rcases N.box _ hm (by rwa [col_time]) k3 with h | h
      · exact this N.left h
      · exact this N.right h
    have hsq := N.left.sign.sq
    have ha := N.left.sign.abs
    have j1 : Joined S (col ε τ y) (col ε (v.time ε - s' * ρ) y) := by
      refine joined_leg fun r r0 r1 => ?_
      have e1 : y + r * (y - y) = y := by ring
      rw [e1]
      have e2 : s' * (τ + r * (v.time ε - s' * ρ - τ) - v.time ε)
          = (1 - r) * (s' * (τ - v.time ε)) - r * ρ := by linear_combination -(r * ρ) * hsq
      refine off _ _ ?_ ?_ h2 ?_
      · rw [e2]; nlinarith
      · have e3 : τ + r * (v.time ε - s' * ρ - τ) - v.time ε
            = (1 - r) * (τ - v.time ε) + r * (-(s' * ρ)) := by ring
        rw [e3]
        refine (abs_add_le _ _).trans ?_
        rw [abs_mul, abs_mul, abs_neg, abs_mul, ha, one_mul, abs_of_pos hρ, abs_of_nonneg r0,
          abs_of_nonneg (by linarith : (0:K) ≤ 1 - r)]
        nlinarith
      · intro e3
        have h0 : (1 - r) * (s' * (τ - v.time ε)) - r * ρ = 0 := by
          rw [← e2, e3, sub_self, mul_zero]
        have hr0 : r = 0 := by
          by_contra hne
          have : 0 < r * ρ := mul_pos (lt_of_le_of_ne r0 (Ne.symm hne)) hρ
          nlinarith
        rw [hr0, zero_mul, add_zero] at e3
        exact fun h => hyv e3 (by linarith)
    have j2 : Joined S (col ε (v.time ε - s' * ρ) y) (col ε (v.time ε - s' * ρ) (v.y + 1 * η)) := by
      refine joined_leg fun r r0 r1 => ?_
      have e1 : v.time ε - s' * ρ + r * (v.time ε - s' * ρ - (v.time ε - s' * ρ)) = v.time ε - s' * ρ := by
        ring
      rw [e1]
      have e2 : v.time ε - s' * ρ - v.time ε = -(s' * ρ) := by ring
      refine off _ _ ?_ ?_ ?_ ?_
      · rw [e2]; nlinarith
      · rw [e2, abs_neg, abs_mul, ha, one_mul, abs_of_pos hρ]
      · rw [abs_le] at h2 ⊢
        constructor <;> nlinarith
      · intro e3
        exact absurd (by linarith : s' * ρ = 0) (mul_ne_zero N.left.sign.ne hρ.ne')
    have j3 := (N.high_leg (σ := 1) (.inl rfl)).symm
    have j := (j1.trans j2).trans j3
    rcases lt_trichotomy (1 * (f.height ε (v.time ε + s' * ρ) - e.height ε (v.time ε + s' * ρ))) 0 with
      h | h | h
    · exact ⟨1, _, _, .inl rfl, .inl (N.outer (.inl rfl) h), j⟩
    · exfalso
      have m1 := pointAt_mem N.left.times N.left.live.1.le N.left.live.2.le
      have m2 := pointAt_mem N.right.times N.right.live.1.le N.right.live.2.le
      have : f.pointAt ε (v.time ε + s' * ρ) = e.pointAt ε (v.time ε + s' * ρ) := by
        unfold pointAt
        rw [show f.height ε (v.time ε + s' * ρ) = e.height ε (v.time ε + s' * ρ) by linarith]
      rw [this] at m2
      have h1 := N.pair _ m1 m2
      have h2 := congrArg (fun p => p.time ε) h1
      simp only [pointAt_time] at h2
      exact mul_ne_zero N.left.sign.ne N.pos.ne' (by linarith)
    · exact ⟨1, _, _, .inl rfl, .inr (N.swap.outer (.inl rfl) (by linarith)), j⟩
  · -- above or below the vertex
    have ht : τ = v.time ε := by
      rw [ho] at hs'
      have : s * (τ - v.time ε) = 0 := le_antisymm hs (by linarith)
      have := (mul_eq_zero.mp this).resolve_left N.left.sign.ne
      linarith
    obtain ⟨σ, hσ, hσd⟩ := exists_sign (hyv ht)
    have p0 : 0 < |y - v.y| := abs_pos.mpr (hyv ht)
    have ey : y = v.y + σ * |y - v.y| := by linarith
    obtain ⟨q, hq, j⟩ := N.half ho hσ
    refine ⟨σ, _, q, hσ, .inl hq, .trans ?_ j.symm⟩
    rw [ht, ey]
    refine joined_leg fun r r0 r1 hm => ?_
    have e1 : v.time ε + r * (v.time ε - v.time ε) = v.time ε := by ring
    have e2 : v.y + σ * |y - v.y| + r * (v.y + σ * (η / 2) - (v.y + σ * |y - v.y|))
        = v.y + σ * ((1 - r) * |y - v.y| + r * (η / 2)) := by ring
    rw [e1, e2] at hm
    have q0 : 0 < (1 - r) * |y - v.y| + r * (η / 2) := by
      rcases eq_or_lt_of_le r0 with h | h
      · rw [← h]; linarith
      · nlinarith
    have : ∀ {g : Segment K} {s : K}, Prong ε v g s ρ η →
        col ε (v.time ε) (v.y + σ * ((1 - r) * |y - v.y| + r * (η / 2))) ∉ g.pts := by
      intro g s P hg
      have h6 := P.mem_iff hg
      rw [col_time, sub_self, mul_zero, add_zero] at h6
      change v.y + _ = _ at h6
      exact mul_ne_zero hσ.ne q0.ne' (by linarith)
    rcases N.box _ hm (by rw [col_time, sub_self, abs_zero]; exact hρ.le) (by
      change |v.y + _ - v.y| ≤ η
      rw [add_sub_cancel_left, abs_mul, hσ.abs, one_mul, abs_of_pos q0]
      nlinarith) with h | h
    · exact this N.left h
    · exact this N.right h

end

section

variable {ε : K} {c : Contour K} {X : List (Segment K)}

theorem Segment.side_dir {S : Set (Point K)} {e : Segment K} {t σ : K} {q : Point K}
    (h : Side ε S e.up t σ q) : Side ε S e.up t (σ * e.dir * e.dir) q := by
  rwa [mul_assoc, e.dir_sign.sq, mul_one]

/-- Points near to a contour are joined with points at its sides. -/
theorem Beside.reach (b : Beside ε c X) {z : Point K} (hz : z ∈ c.pts) (hzX : z ∉ segsPts X) :
    ∃ ρ η, 0 < ρ ∧ 0 < η ∧ ∀ x : Point K, |x.time ε - z.time ε| ≤ ρ → |x.y - z.y| ≤ η →
      x ∉ c.pts ∪ segsPts X →
      ∃ d q, Sign d ∧ BankIn ε c (c.pts ∪ segsPts X) d q ∧ Joined (c.pts ∪ segsPts X) x q := by
  have h3 := b.simple.three
  have vertex : ∀ i j, c.Next i j → c.vertices[i]? = some z →
      ∃ ρ η, 0 < ρ ∧ 0 < η ∧ ∀ x : Point K, |x.time ε - z.time ε| ≤ ρ → |x.y - z.y| ≤ η →
      x ∉ c.pts ∪ segsPts X →
      ∃ d q, Sign d ∧ BankIn ε c (c.pts ∪ segsPts X) d q ∧ Joined (c.pts ∪ segsPts X) x q := by
    intro i j hn hi
    obtain ⟨a, v, w, ρ, η, he, hf, N⟩ := b.nook hn fun v hv => by
      rw [hi] at hv; cases hv; exact hzX
    have := Contour.edge_finish c he
    rw [hi] at this
    obtain rfl : z = v := Option.some.inj this
    refine ⟨ρ, η, N.pos, N.high, fun x h1 h2 hx => ?_⟩
    have sub : ∀ {e : Segment K}, e ∈ c.edgeList → e.up.pts ⊆ c.pts ∪ segsPts X := by
      intro e he p hp
      rw [Segment.pts_up] at hp
      exact .inl ⟨e, he, hp⟩
    have me := List.mem_of_getElem? he
    have mf := List.mem_of_getElem? hf
    obtain ⟨σ, t, q, hσ, h, hj⟩ := N.reach (by rw [Segment.pts_up]; exact Segment.finish_mem _)
      (by rw [Segment.pts_up]; exact Segment.start_mem _) (sub me) (sub mf) h1 h2 hx
    rcases h with h | h
    · exact ⟨σ * (⟨a, z⟩ : Segment K).dir, q, hσ.mul (Segment.dir_sign _), ⟨_, me, t, Segment.side_dir h⟩, hj⟩
    · exact ⟨σ * (⟨z, w⟩ : Segment K).dir, q, hσ.mul (Segment.dir_sign _), ⟨_, mf, t, Segment.side_dir h⟩, hj⟩
  obtain ⟨e, he, hze⟩ := hz
  obtain ⟨i, hi⟩ := List.mem_iff_getElem?.mp he
  have hlt : i < c.vertices.length := by
    rw [← Contour.length_edgeList]; exact (List.getElem?_eq_some_iff.mp hi).1
  by_cases hend : e.IsEndpoint z
  · rcases hend with h | h
    · obtain ⟨j, hj⟩ := c.exists_prev hlt
      exact vertex j i hj (by rw [h]; exact Contour.edge_start c (by omega) hj hi)
    · obtain ⟨j, hj⟩ := c.exists_next hlt
      exact vertex i j hj (by rw [h]; exact Contour.edge_finish c hi)
  · have hte := b.edge he
    have hm := hze
    rw [← Segment.pts_up, mem_pts_iff_height hte] at hm
    have l1 : e.up.start.time ε < z.time ε := lt_of_le_of_ne hm.1 fun h => hend (Segment.up_endpoint.mp (.inl (by
      refine Point.ext_time h.symm ?_
      rw [hm.2.2, ← h, height_start])))
    have l2 : z.time ε < e.up.finish.time ε := lt_of_le_of_ne hm.2.1 fun h => hend (Segment.up_endpoint.mp (.inr (by
      refine Point.ext_time h ?_
      rw [hm.2.2, h, height_finish hte])))
    obtain ⟨t₁, a1, a2⟩ := exists_between l1
    obtain ⟨t₂, b1, b2⟩ := exists_between l2
    obtain ⟨δ, hδ, hg⟩ := b.gap he (a2.trans b1).le a1 b2
    have hs : (0:K) < |e.up.slope ε| + 1 := by positivity
    refine ⟨min (min (z.time ε - t₁) (t₂ - z.time ε)) (δ / (2 * (|e.up.slope ε| + 1))), δ / 2,
      lt_min (lt_min (by linarith) (by linarith)) (by positivity), by linarith, fun x h1 h2 hx => ?_⟩
    have k1 := abs_le.mp (h1.trans ((min_le_left _ _).trans (min_le_left _ _)))
    have k2 := abs_le.mp (h1.trans ((min_le_left _ _).trans (min_le_right _ _)))
    have k3 := h1.trans (min_le_right _ _)
    have t1 : t₁ ≤ x.time ε := by linarith
    have t2 : x.time ε ≤ t₂ := by linarith
    have hb : |x.y - e.up.height ε (x.time ε)| ≤ δ := by
      have e1 : x.y - e.up.height ε (x.time ε) = (x.y - z.y) - e.up.slope ε * (x.time ε - z.time ε) := by
        rw [hm.2.2, height_eq e.up (x.time ε) (z.time ε)]; ring
      rw [e1]
      refine (abs_sub _ _).trans ?_
      have : |e.up.slope ε * (x.time ε - z.time ε)| ≤ δ / 2 := by
        rw [abs_mul]
        calc |e.up.slope ε| * |x.time ε - z.time ε|
            ≤ (|e.up.slope ε| + 1) * (δ / (2 * (|e.up.slope ε| + 1))) :=
              mul_le_mul (by linarith) k3 (abs_nonneg _) hs.le
          _ = δ / 2 := by field_simp
      linarith
    have hne : x.y - e.up.height ε (x.time ε) ≠ 0 := by
      intro h0
      refine hx (.inl ⟨e, he, ?_⟩)
      rw [← Segment.pts_up, mem_pts_iff_height hte]
      exact ⟨by linarith, by linarith, by linarith⟩
    obtain ⟨σ, hσ, hσd⟩ := exists_sign hne
    refine ⟨σ * e.dir, x, hσ.mul e.dir_sign, ⟨e, he, x.time ε, Segment.side_dir ⟨⟨by linarith, by linarith⟩,
      |x.y - e.up.height ε (x.time ε)|, abs_pos.mpr hne, ?_, fun δ' d0 d1 => ?_⟩⟩, .refl⟩
    · rw [← hσd, add_sub_cancel, col_self]
    · refine hg _ t1 t2 _ (mul_ne_zero hσ.ne d0.ne') ?_
      rw [abs_mul, hσ.abs, one_mul, abs_of_pos d0]
      exact d1.trans hb

/-- A path which avoids the segments leads to the other end or to a side of the contour. -/
theorem Beside.path (b : Beside ε c X) {p q : Point K} (hp : p ∉ c.pts ∪ segsPts X)
    (h : Joined (segsPts X) p q) : Joined (c.pts ∪ segsPts X) p q ∨
      ∃ d x, Sign d ∧ BankIn ε c (c.pts ∪ segsPts X) d x ∧ Joined (c.pts ∪ segsPts X) p x := by
  have away : ∀ {q}, Joined (c.pts ∪ segsPts X) p q → q ∉ c.pts ∪ segsPts X := by
    intro q h
    cases h with
    | refl => exact hp
    | step _ h => exact h _ (Segment.finish_mem _)
  induction h with
  | refl => exact .inl .refl
  | @step q r h1 h2 ih =>
    rcases ih with ih | ih
    · by_cases hb : ∀ z ∈ (⟨q, r⟩ : Segment K).pts, z ∉ c.pts
      · exact .inl (ih.step fun z hz => by
          rintro (h | h)
          · exact hb z hz h
          · exact h2 z hz h)
      · push Not at hb
        have hq := away ih
        obtain ⟨z, hz, hzc⟩ := hb
        have hrq : r ≠ q := by
          rintro rfl
          obtain ⟨u, -, -, rfl⟩ := hz
          rw [show lerp r r u = r by unfold lerp; exact Point.ext (by simp) (by simp)] at hzc
          exact hq (.inl hzc)
        obtain ⟨v, v0, v1, hv, hmax⟩ := exists_last hrq c.edgeList (by
          rw [← Segment.pts_reverse] at hz
          obtain ⟨u, u0, u1, rfl⟩ := hz
          exact ⟨u, u0, u1, hzc⟩)
        have hv1 : v < 1 := lt_of_le_of_ne v1 fun e => by
          rw [e, lerp_one] at hv
          exact hq (.inl hv)
        have seg : ∀ w, v ≤ w → w ≤ 1 → lerp r q w ∈ (⟨q, r⟩ : Segment K).pts := by
          intro w w0 w1
          rw [← Segment.pts_reverse]
          exact ⟨w, v0.trans w0, w1, rfl⟩
        obtain ⟨ρ, η, hρ, hη, hr⟩ := b.reach hv (h2 _ (seg v le_rfl v1))
        -- a point of the path near to the contour
        obtain ⟨κ, hκ, hκ1, hκρ, hκη⟩ : ∃ κ, 0 < κ ∧ κ ≤ 1 - v ∧ κ * |q.time ε - r.time ε| ≤ ρ ∧
            κ * |q.y - r.y| ≤ η := by
          have m1 : (0:K) < |q.time ε - r.time ε| + 1 := by positivity
          have m2 : (0:K) < |q.y - r.y| + 1 := by positivity
          refine ⟨min (1 - v) (min (ρ / (|q.time ε - r.time ε| + 1)) (η / (|q.y - r.y| + 1))),
            lt_min (by linarith) (lt_min (by positivity) (by positivity)), min_le_left _ _, ?_, ?_⟩
          · calc _ ≤ ρ / (|q.time ε - r.time ε| + 1) * (|q.time ε - r.time ε| + 1) :=
                  mul_le_mul ((min_le_right _ _).trans (min_le_left _ _)) (by linarith) (abs_nonneg _)
                    (by positivity)
              _ = ρ := by field_simp
          · calc _ ≤ η / (|q.y - r.y| + 1) * (|q.y - r.y| + 1) :=
                  mul_le_mul ((min_le_right _ _).trans (min_le_right _ _)) (by linarith) (abs_nonneg _)
                    (by positivity)
              _ = η := by field_simp
        have off : ∀ w, v < w → w ≤ 1 → lerp r q w ∉ c.pts ∪ segsPts X := by
          rintro w w0 w1 (h | h)
          · exact absurd (hmax w w1 h) (not_le.mpr w0)
          · exact h2 _ (seg w w0.le w1) h
        obtain ⟨d, x, hd, hx, hj⟩ := hr (lerp r q (v + κ)) (by
            have : (lerp r q (v + κ)).time ε - (lerp r q v).time ε = κ * (q.time ε - r.time ε) := by
              unfold lerp Point.time; simp only; ring
            rw [this, abs_mul, abs_of_pos hκ]
            exact hκρ) (by
            have : (lerp r q (v + κ)).y - (lerp r q v).y = κ * (q.y - r.y) := by
              unfold lerp; simp only; ring
            rw [this, abs_mul, abs_of_pos hκ]
            exact hκη) (off _ (by linarith) (by linarith))
        refine .inr ⟨d, x, hd, hx, (ih.step ?_).trans hj⟩
        rintro y ⟨w, w0, w1, rfl⟩
        have e1 : lerp q (lerp r q (v + κ)) w = lerp r q (1 + w * (v + κ - 1)) := by
          rw [← lerp_lerp, lerp_one]
        simp only
        rw [e1]
        exact off _ (by nlinarith) (by nlinarith)
    · exact .inr ih

/-- Points which are joined without meeting the segments and have the same location with respect to the
contour are joined without meeting both. -/
theorem Beside.joined (b : Beside ε c X) {p q : Point K} (hp : p ∉ c.pts ∪ segsPts X)
    (hq : q ∉ c.pts ∪ segsPts X) (h : Joined (segsPts X) p q) (hl : p ∈ c.interior ↔ q ∈ c.interior) :
    Joined (c.pts ∪ segsPts X) p q := by
  rcases b.path hp h with h1 | ⟨d₁, x, s1, b1, j1⟩
  · exact h1
  rcases b.path hq h.symm with h2 | ⟨d₂, y, s2, b2, j2⟩
  · exact h2.symm
  have weaken : ∀ {u w : Point K}, Joined (c.pts ∪ segsPts X) u w → Joined c.pts u w := by
    intro u w h
    induction h with
    | refl => exact .refl
    | step _ h2 ih => exact ih.step fun z hz hc => h2 z hz (.inl hc)
  have bank : ∀ {d u}, BankIn ε c (c.pts ∪ segsPts X) d u → Bank ε c d u := by
    rintro d u ⟨e, he, t, hl, δ, h0, h1, h2⟩
    exact ⟨e, he, t, hl, δ, h0, h1, fun δ' k0 k1 hc => h2 δ' k0 k1 (.inl hc)⟩
  suffices e : d₁ = d₂ by
    subst e
    exact (j1.trans (b.bank_joined s1 b1 b2)).trans j2.symm
  by_contra hne
  have hs := b.simple
  have i1 := Contour.interior_iff_of_joined (weaken j1)
  have i2 := Contour.interior_iff_of_joined (weaken j2)
  have hxy : x ∈ c.interior ↔ y ∈ c.interior := i1.symm.trans (hl.trans i2)
  have two : ∀ {a b c : K}, Sign a → Sign b → Sign c → a ≠ b → c = a ∨ c = b := by
    rintro a b c (rfl | rfl) (rfl | rfl) (rfl | rfl) h <;> simp_all
  have all : ∀ u, u ∉ c.pts → (u ∈ c.interior ↔ x ∈ c.interior) := by
    intro u hu
    obtain ⟨d, u', s3, b3, j3⟩ := exists_bank hs b.mono hu
    have i3 := Contour.interior_iff_of_joined j3
    rcases two s1 s2 s3 hne with e | e
    · subst e
      exact i3.trans (Contour.interior_iff_of_joined (b3.joined hs b.mono s3 (bank b1)))
    · subst e
      exact (i3.trans (Contour.interior_iff_of_joined (b3.joined hs b.mono s3 (bank b2)))).trans hxy.symm
  obtain ⟨u, hu⟩ := hs.interior_nonempty
  obtain ⟨w, hw⟩ := hs.exterior_nonempty
  exact Contour.not_both ((all w hw.1).mpr ((all u hu.1).mp hu)) hw

end

end Orient
