import Verif.Spec.Stable
import Verif.Lemmas.RegionPath
import Verif.Lemmas.Loop

/-! Facts which are not changed by small moves of points. -/

set_option linter.unusedSectionVars false

namespace Orient

variable {K : Type} [Field K] [LinearOrder K] [IsStrictOrderedRing K]

/-! ### for all small numbers -/

/-- The property holds for all small enough numbers. -/
def Small (P : K → Prop) : Prop := ∃ δ, 0 < δ ∧ ∀ η, η ≤ δ → P η

theorem Small.mono {P Q : K → Prop} (h : Small P) (k : ∀ η, P η → Q η) : Small Q := by
  obtain ⟨δ, h0, h1⟩ := h
  exact ⟨δ, h0, fun η hη => k η (h1 η hη)⟩

theorem Small.and {P Q : K → Prop} (h : Small P) (k : Small Q) : Small fun η => P η ∧ Q η := by
  obtain ⟨δ, h0, h1⟩ := h
  obtain ⟨ε, k0, k1⟩ := k
  exact ⟨min δ ε, lt_min h0 k0, fun η hη => ⟨h1 η (hη.trans (min_le_left _ _)), k1 η (hη.trans (min_le_right _ _))⟩⟩

theorem small_of_forall {P : K → Prop} (h : ∀ η, P η) : Small P := ⟨1, one_pos, fun η _ => h η⟩

theorem Small.all {α : Type} {P : α → K → Prop} : ∀ {l : List α}, (∀ x ∈ l, Small (P x)) →
    Small fun η => ∀ x ∈ l, P x η
  | [], _ => small_of_forall fun η x hx => absurd hx List.not_mem_nil
  | y :: l, h => by
    refine ((h y (by simp)).and (Small.all (l := l) fun x hx => h x (by simp [hx]))).mono fun η k x hx => ?_
    rcases List.mem_cons.mp hx with rfl | hx
    · exact k.1
    · exact k.2 x hx

theorem Small.exists {P : K → Prop} (h : Small P) : ∃ δ, 0 < δ ∧ P δ := by
  obtain ⟨δ, h0, h1⟩ := h
  exact ⟨δ, h0, h1 δ le_rfl⟩

theorem Small.exists_le {P : K → Prop} (h : Small P) {ε : K} (hε : 0 < ε) : ∃ δ, (0 < δ ∧ δ ≤ ε) ∧ P δ := by
  obtain ⟨δ, h0, h1⟩ := h
  exact ⟨min δ ε, ⟨lt_min h0 hε, min_le_right _ _⟩, h1 _ (min_le_left _ _)⟩

/-! ### numbers -/

theorem mix_lt {t x y k : K} (t0 : 0 ≤ t) (t1 : t ≤ 1) (hx : x < k) (hy : y < k) : (1 - t) * x + t * y < k := by
  rcases t0.lt_or_eq with h | h
  · have h1 := mul_lt_mul_of_pos_left hy h
    have h2 := mul_le_mul_of_nonneg_left hx.le (sub_nonneg.mpr t1)
    linarith
  · subst h; linarith

theorem mul_close (a b : K) {ε : K} (hε : 0 < ε) :
    Small fun δ => ∀ a' b' : K, |a' - a| < δ → |b' - b| < δ → |a' * b' - a * b| < ε := by
  have hs : 0 < |a| + |b| + 1 := by positivity
  refine ⟨min 1 (ε / (|a| + |b| + 1)), lt_min one_pos (div_pos hε hs), fun η hη a' b' ha hb => ?_⟩
  have h1 : η ≤ 1 := hη.trans (min_le_left _ _)
  have h2 : η * (|a| + |b| + 1) ≤ ε := (le_div_iff₀ hs).mp (hη.trans (min_le_right _ _))
  have h0 : 0 < η := (abs_nonneg _).trans_lt ha
  have hb' : |b'| ≤ |b| + 1 := by
    have := abs_sub_abs_le_abs_sub b' b
    linarith
  have e : a' * b' - a * b = (a' - a) * b' + a * (b' - b) := by ring
  rw [e]
  have h3 : |(a' - a) * b'| ≤ |a' - a| * (|b| + 1) := by
    rw [abs_mul]; exact mul_le_mul_of_nonneg_left hb' (abs_nonneg _)
  have h4 : |a * (b' - b)| ≤ |a| * η := by
    rw [abs_mul]; exact mul_le_mul_of_nonneg_left hb.le (abs_nonneg _)
  have h5 : |a' - a| * (|b| + 1) < η * (|b| + 1) := mul_lt_mul_of_pos_right ha (by positivity)
  have := abs_add_le ((a' - a) * b') (a * (b' - b))
  nlinarith

theorem cross_close (v a b : Point K) {ε : K} (hε : 0 < ε) :
    Small fun δ => ∀ v' a' b' : Point K, v.Near δ v' → a.Near δ a' → b.Near δ b' →
      |cross v' a' b' - cross v a b| < ε := by
  have hε : 0 < ε / 2 := by linarith
  obtain ⟨δ, h0, h1⟩ := (mul_close (a.x - v.x) (b.y - v.y) hε).and (mul_close (a.y - v.y) (b.x - v.x) hε)
  refine ⟨δ / 2, by linarith, fun η hη v' a' b' hv ha hb => ?_⟩
  have sub : ∀ x y x' y' : K, |x' - x| < η → |y' - y| < η → |(x' - y') - (x - y)| < δ := by
    intro x y x' y' hx hy
    have := abs_sub (x' - x) (y' - y)
    rw [show (x' - y') - (x - y) = (x' - x) - (y' - y) by ring]
    linarith
  have k1 := (h1 δ le_rfl).1 (a'.x - v'.x) (b'.y - v'.y) (sub _ _ _ _ ha.1 hv.1) (sub _ _ _ _ hb.2 hv.2)
  have k2 := (h1 δ le_rfl).2 (a'.y - v'.y) (b'.x - v'.x) (sub _ _ _ _ ha.2 hv.2) (sub _ _ _ _ hb.1 hv.1)
  simp only [cross]
  rw [abs_lt] at *
  constructor <;> linarith [k1.1, k1.2, k2.1, k2.2]

theorem cross_pos_near {v a b : Point K} (h : 0 < cross v a b) :
    Small fun δ => ∀ v' a' b' : Point K, v.Near δ v' → a.Near δ a' → b.Near δ b' → 0 < cross v' a' b' :=
  (cross_close v a b h).mono fun δ k v' a' b' hv ha hb => by
    have := (abs_lt.mp (k v' a' b' hv ha hb)).1
    linarith

theorem cross_neg_near {v a b : Point K} (h : cross v a b < 0) :
    Small fun δ => ∀ v' a' b' : Point K, v.Near δ v' → a.Near δ a' → b.Near δ b' → cross v' a' b' < 0 :=
  (cross_close v a b (neg_pos.mpr h)).mono fun δ k v' a' b' hv ha hb => by
    have := (abs_lt.mp (k v' a' b' hv ha hb)).2
    linarith

theorem Point.near_self {δ : K} (h : 0 < δ) (p : Point K) : p.Near δ p := by
  simp [Point.Near, h]

theorem Point.Near.pos {δ : K} {p q : Point K} (h : p.Near δ q) : 0 < δ := (abs_nonneg _).trans_lt h.1

theorem Point.Near.mono {δ ε : K} {p q : Point K} (h : p.Near δ q) (hε : δ ≤ ε) : p.Near ε q :=
  ⟨h.1.trans_le hε, h.2.trans_le hε⟩

/-- The point of the direction `d` from `p`. -/
def Point.ahead (p d : Point K) : Point K := ⟨p.x + d.x, p.y + d.y⟩

theorem Point.Near.ahead {δ : K} {p q : Point K} (h : p.Near δ q) (d : Point K) :
    (p.ahead d).Near δ (q.ahead d) := by
  simpa [Point.Near, Point.ahead] using h

theorem side_eq_cross (p d v : Point K) : side p d v = cross p (p.ahead d) v := by
  simp [side, cross, Point.ahead]

/-! ### points beside segments -/

/-- A line through a point, which does not contain the ends of an edge, crosses the edge or not; this does not
change by small moves. -/
theorem halfCross_near {p d : Point K} {e : Segment K} (hs : side p d e.start ≠ 0) (hf : side p d e.finish ≠ 0)
    (hp : p ∉ e.pts) :
    Small fun δ => ∀ (p' : Point K) (e' : Segment K), p.Near δ p' → e.Near δ e' →
      p' ∉ e'.pts ∧ (HalfCross p' d e'.start e'.finish ↔ HalfCross p d e.start e.finish) := by
  obtain ⟨a, b⟩ := e
  simp only at hs hf
  have sign : ∀ v, side p d v ≠ 0 → Small fun δ => ∀ p' v' : Point K, p.Near δ p' → v.Near δ v' →
      side p' d v' ≠ 0 ∧ (0 < side p' d v' ↔ 0 < side p d v) := by
    intro v hv
    simp only [side_eq_cross] at hv ⊢
    rcases lt_or_gt_of_ne hv with h | h
    · refine (cross_neg_near h).mono fun δ k p' v' hp hv => ?_
      have := k p' _ v' hp (hp.ahead d) hv
      exact ⟨this.ne, iff_of_false this.not_gt h.not_gt⟩
    · refine (cross_pos_near h).mono fun δ k p' v' hp hv => ?_
      have := k p' _ v' hp (hp.ahead d) hv
      exact ⟨this.ne', iff_of_true this h⟩
  have base := (sign a hs).and (sign b hf)
  have along : ∀ (p' a' b' : Point K) (t : K), p' = lerp a' b' t →
      (1 - t) * side p' d a' + t * side p' d b' = 0 := by
    rintro p' a' b' t rfl
    simp only [side, lerp]
    ring
  by_cases h : 0 < side p d a ↔ 0 < side p d b
  · refine base.mono fun δ k p' e' h1 h2 => ?_
    obtain ⟨⟨a1, a2⟩, b1, b2⟩ := And.intro (k.1 p' _ h1 h2.1) (k.2 p' _ h1 h2.2)
    have h' : 0 < side p' d e'.start ↔ 0 < side p' d e'.finish := by rw [a2, b2, h]
    constructor
    · rintro ⟨t, t0, t1, ht⟩
      have := along _ _ _ _ ht
      rcases lt_or_gt_of_ne a1 with s | s
      · have s' : side p' d e'.finish < 0 := lt_of_le_of_ne (not_lt.mp fun h => s.not_gt (h'.mpr h)) b1
        exact (mix_lt t0 t1 s s').ne this
      · have s' := h'.mp s
        have := mix_lt t0 t1 (neg_lt_zero.mpr s) (neg_lt_zero.mpr s')
        linarith
    · unfold HalfCross
      tauto
  · rcases cross_ne_zero_of_straddle hp h with hX | hX
    · refine (base.and (cross_pos_near hX)).mono fun δ k p' e' h1 h2 => ?_
      have a2 := (k.1.1 p' _ h1 h2.1).2
      have b2 := (k.1.2 p' _ h1 h2.2).2
      have hX' := k.2 p' _ _ h1 h2.1 h2.2
      refine ⟨fun hm => hX'.ne' ?_, ?_⟩
      · obtain ⟨t, -, -, rfl⟩ := hm
        simp only [cross, lerp]; ring
      · unfold HalfCross
        simp only [a2, b2, hX', hX, hX.not_gt, hX'.not_gt]
    · refine (base.and (cross_neg_near hX)).mono fun δ k p' e' h1 h2 => ?_
      have a2 := (k.1.1 p' _ h1 h2.1).2
      have b2 := (k.1.2 p' _ h1 h2.2).2
      have hX' := k.2 p' _ _ h1 h2.1 h2.2
      refine ⟨fun hm => hX'.ne ?_, ?_⟩
      · obtain ⟨t, -, -, rfl⟩ := hm
        simp only [cross, lerp]; ring
      · unfold HalfCross
        simp only [a2, b2, hX', hX, hX.not_gt, hX'.not_gt]

/-- There is a line through a point which contains no vertex. -/
theorem exists_side_ne (l : List (Point K)) {p : Point K} (hp : p ∉ l) :
    ∃ d, IsDirection d ∧ ∀ v ∈ l, side p d v ≠ 0 := by
  classical
  have : Infinite K := NoMaxOrder.infinite
  obtain ⟨s, hs⟩ := Infinite.exists_notMem_finset
    (l.toFinset.image (fun v => (v.y - p.y) / (v.x - p.x)))
  refine ⟨⟨1, s⟩, Or.inl one_ne_zero, fun v hv h => ?_⟩
  simp only [side, one_mul] at h
  by_cases hx : v.x - p.x = 0
  · rw [hx, mul_zero, sub_zero] at h
    exact hp (by rwa [show v = p from Point.ext (by linear_combination hx) (by linear_combination h)] at hv)
  · refine hs (Finset.mem_image.mpr ⟨v, List.mem_toFinset.mpr hv, ?_⟩)
    rw [div_eq_iff hx]
    linear_combination h

/-! ### lists -/

theorem forall₂_imp_mem {α β : Type} {R Q : α → β → Prop} : ∀ {l : List α} {l' : List β}, List.Forall₂ R l l' →
    (∀ x ∈ l, ∀ y ∈ l', R x y → Q x y) → List.Forall₂ Q l l'
  | _, _, .nil, _ => .nil
  | _, _, .cons h t, k => .cons (k _ (by simp) _ (by simp) h)
    (forall₂_imp_mem t fun x hx y hy => k x (by simp [hx]) y (by simp [hy]))

theorem forall₂_mem_right {α β : Type} {R : α → β → Prop} : ∀ {l : List α} {l' : List β}, List.Forall₂ R l l' →
    ∀ y ∈ l', ∃ x ∈ l, R x y
  | _, _, .cons h t, y, hy => by
    rcases List.mem_cons.mp hy with rfl | hy
    · exact ⟨_, by simp, h⟩
    · obtain ⟨x, hx, k⟩ := forall₂_mem_right t y hy
      exact ⟨x, by simp [hx], k⟩

theorem forall₂_mem_left {α β : Type} {R : α → β → Prop} {l : List α} {l' : List β} (h : List.Forall₂ R l l')
    (x : α) (hx : x ∈ l) : ∃ y ∈ l', R x y := by
  obtain ⟨y, hy, k⟩ := forall₂_mem_right h.flip x hx
  exact ⟨y, hy, k⟩

theorem forall₂_rotate {α β : Type} {R : α → β → Prop} {l : List α} {l' : List β} (h : List.Forall₂ R l l') (n : ℕ) :
    List.Forall₂ R (l.rotate n) (l'.rotate n) := by
  rw [List.rotate_eq_drop_append_take_mod, List.rotate_eq_drop_append_take_mod, h.length_eq]
  exact List.rel_append (List.forall₂_drop _ h) (List.forall₂_take _ h)

theorem forall₂_zipWith {α β : Type} {R : α → α → Prop} {Q : β → β → Prop} {f : α → α → β}
    (hf : ∀ a b a' b', R a a' → R b b' → Q (f a b) (f a' b')) : ∀ {l l' k k' : List α}, List.Forall₂ R l l' →
    List.Forall₂ R k k' → List.Forall₂ Q (List.zipWith f l k) (List.zipWith f l' k')
  | _, _, _, _, .nil, _ => by simp
  | _, _, _, _, .cons _ _, .nil => by simp
  | _, _, _, _, .cons h t, .cons h' t' => by
    simp only [List.zipWith_cons_cons]
    exact .cons (hf _ _ _ _ h h') (forall₂_zipWith hf t t')

theorem forall₂_flatMap {α β : Type} {R : α → α → Prop} {Q : β → β → Prop} {f : α → List β}
    (hf : ∀ a a', R a a' → List.Forall₂ Q (f a) (f a')) : ∀ {l l' : List α}, List.Forall₂ R l l' →
    List.Forall₂ Q (l.flatMap f) (l'.flatMap f)
  | _, _, .nil => .nil
  | _, _, .cons h t => by
    simp only [List.flatMap_cons]
    exact List.rel_append (hf _ _ h) (forall₂_flatMap hf t)

theorem forall₂_countP {α : Type} {P Q : α → Bool} : ∀ {l l' : List α},
    List.Forall₂ (fun x y => P x = Q y) l l' → l.countP P = l'.countP Q
  | _, _, .nil => rfl
  | _, _, .cons h t => by simp only [List.countP_cons, h, forall₂_countP t]

/-! ### contours -/

theorem Contour.Near.mono {δ ε : K} {c d : Contour K} (h : c.Near δ d) (k : δ ≤ ε) : c.Near ε d :=
  List.Forall₂.imp (fun _ _ h => h.mono k) h

theorem Contour.Near.edges {δ : K} {c d : Contour K} (h : c.Near δ d) :
    List.Forall₂ (Segment.Near δ) c.edgeList d.edgeList := by
  unfold Contour.edgeList
  rw [← h.length_eq]
  exact forall₂_zipWith (fun _ _ _ _ h h' => ⟨h, h'⟩) (forall₂_rotate h _) h

/-- The location of a point which is not on the contour does not change by small moves. -/
theorem locatePoint_near {context : Context K} (hc : context.Exact) (c : Region K) {p : Point K}
    (hp : p ∉ Contour.pts c) :
    Small fun δ => ∀ (p' : Point K) (c' : Region K), p.Near δ p' → Contour.Near δ c c' →
      region.locatePoint c p context = region.locatePoint c' p' context := by
  classical
  obtain ⟨d, hd, hv⟩ := exists_side_ne (Contour.vertices c) fun h => hp (Contour.vertex_mem_pts h)
  refine (Small.all (l := Contour.edgeList c) (P := fun e δ => ∀ (p' : Point K) (e' : Segment K), p.Near δ p' →
    e.Near δ e' → p' ∉ e'.pts ∧ (HalfCross p' d e'.start e'.finish ↔ HalfCross p d e.start e.finish))
    fun e he => ?_).mono fun δ k p' c' h1 h2 => ?_
  · have hm := Contour.mem_vertices_of_mem_edgeList he
    exact halfCross_near (hv _ hm.1) (hv _ hm.2) fun h => hp ⟨e, he, h⟩
  · have h2 := h2.edges
    have hp' : p' ∉ Contour.pts c' := by
      rintro ⟨e', he', hm⟩
      obtain ⟨e, he, hn⟩ := forall₂_mem_right h2 e' he'
      exact (k e he p' e' h1 hn).1 hm
    rw [locatePoint_of_not_mem hc c hp hd, locatePoint_of_not_mem hc c' hp' hd]
    have : (Contour.edgeList c).countP (fun s => decide (HalfCross p d s.start s.finish)) =
        (Contour.edgeList c').countP (fun s => decide (HalfCross p' d s.start s.finish)) := by
      refine forall₂_countP (forall₂_imp_mem h2 fun e he e' he' hn => ?_)
      simp only [(k e he p' e' h1 hn).2]
    rw [this]

/-! ### segments without common points -/

/-- Segments without common points are strictly on different sides of a line. -/
theorem exists_between {s t : Segment K} (h : s.pts ∩ t.pts = ∅) :
    ∃ m n k : K, (m * s.start.x + n * s.start.y < k ∧ m * s.finish.x + n * s.finish.y < k) ∧
      k < m * t.start.x + n * t.start.y ∧ k < m * t.finish.x + n * t.finish.y := by
  obtain ⟨a, b⟩ := s
  obtain ⟨c, d⟩ := t
  have h : ∀ r u : K, 0 ≤ r → r ≤ 1 → 0 ≤ u → u ≤ 1 → lerp a b r ≠ lerp c d u := by
    intro r u r0 r1 u0 u1 e
    exact Set.eq_empty_iff_forall_notMem.mp h (lerp a b r) ⟨⟨r, r0, r1, rfl⟩, ⟨u, u0, u1, e⟩⟩
  simp only
  -- a strict side
  have strict : ∀ a b c d : Point K, 0 < cross a b c * cross a b d →
      ∃ m n k : K, (m * a.x + n * a.y < k ∧ m * b.x + n * b.y < k) ∧ k < m * c.x + n * c.y ∧ k < m * d.x + n * d.y := by
    intro a b c d h
    rcases pos_and_pos_or_neg_and_neg_of_mul_pos h with ⟨h1, h2⟩ | ⟨h1, h2⟩
    · refine ⟨-(b.y - a.y), b.x - a.x, -(b.y - a.y) * a.x + (b.x - a.x) * a.y + min (cross a b c) (cross a b d) / 2,
        ⟨?_, ?_⟩, ?_, ?_⟩
      · have := lt_min h1 h2; linarith
      · have := lt_min h1 h2; linarith
      · have := min_le_left (cross a b c) (cross a b d)
        simp only [cross] at *; linarith
      · have := min_le_right (cross a b c) (cross a b d)
        simp only [cross] at *; linarith
    · refine ⟨b.y - a.y, -(b.x - a.x), (b.y - a.y) * a.x - (b.x - a.x) * a.y - max (cross a b c) (cross a b d) / 2,
        ⟨?_, ?_⟩, ?_, ?_⟩
      · have := max_lt h1 h2; linarith
      · have := max_lt h1 h2; linarith
      · have := le_max_left (cross a b c) (cross a b d)
        simp only [cross] at *; linarith
      · have := le_max_right (cross a b c) (cross a b d)
        simp only [cross] at *; linarith
  have flip : ∀ {a b c d : Point K}, (∃ m n k : K, (m * a.x + n * a.y < k ∧ m * b.x + n * b.y < k) ∧
      k < m * c.x + n * c.y ∧ k < m * d.x + n * d.y) → ∃ m n k : K, (m * c.x + n * c.y < k ∧ m * d.x + n * d.y < k) ∧
      k < m * a.x + n * a.y ∧ k < m * b.x + n * b.y := by
    rintro a b c d ⟨m, n, k, ⟨h1, h2⟩, h3, h4⟩
    exact ⟨-m, -n, -k, ⟨by linarith, by linarith⟩, by linarith, by linarith⟩
  -- on one line
  have line : ∀ a b c d : Point K, (∀ r u : K, 0 ≤ r → r ≤ 1 → 0 ≤ u → u ≤ 1 → lerp a b r ≠ lerp c d u) →
      c ≠ d → cross c d a = 0 → cross c d b = 0 → ∃ m n k : K, (m * a.x + n * a.y < k ∧ m * b.x + n * b.y < k) ∧
      k < m * c.x + n * c.y ∧ k < m * d.x + n * d.y := by
    intro a b c d h hne ha hb
    obtain ⟨α, hα⟩ := exists_lerp_of_cross_eq_zero hne ha
    obtain ⟨β, hβ⟩ := exists_lerp_of_cross_eq_zero hne hb
    have hq : 0 < (d.x - c.x) * (d.x - c.x) + (d.y - c.y) * (d.y - c.y) := by
      rcases (mul_self_nonneg (d.x - c.x)).lt_or_eq with h1 | h1
      · have := mul_self_nonneg (d.y - c.y); linarith
      · rcases (mul_self_nonneg (d.y - c.y)).lt_or_eq with h2 | h2
        · linarith
        · exact absurd (Point.ext (by linarith [mul_self_eq_zero.mp h1.symm]) (by linarith [mul_self_eq_zero.mp h2.symm])) hne
    have hr : ∀ r : K, lerp a b r = lerp c d (α + r * (β - α)) := by
      intro r; rw [hα, hβ, lerp_lerp]
    have h' : ∀ r : K, 0 ≤ r → r ≤ 1 → ¬ (0 ≤ α + r * (β - α) ∧ α + r * (β - α) ≤ 1) := fun r r0 r1 hu =>
      h r _ r0 r1 hu.1 hu.2 (hr r)
    have hα' := h' 0 le_rfl zero_le_one
    have hβ' := h' 1 zero_le_one le_rfl
    simp only [zero_mul, add_zero, one_mul, add_sub_cancel] at hα' hβ'
    have both : (α < 0 ∧ β < 0) ∨ (1 < α ∧ 1 < β) := by
      by_contra hn
      have cases : (α < 0 ∧ 1 < β) ∨ (1 < α ∧ β < 0) := by
        rcases lt_or_ge α 0 with h1 | h1
        · rcases lt_or_ge β 0 with h2 | h2
          · exact absurd (.inl ⟨h1, h2⟩) hn
          · exact .inl ⟨h1, not_le.mp fun h3 => hβ' ⟨h2, h3⟩⟩
        · have h3 : 1 < α := not_le.mp fun h3 => hα' ⟨h1, h3⟩
          rcases lt_or_ge β 0 with h2 | h2
          · exact .inr ⟨h3, h2⟩
          · exact absurd (.inr ⟨h3, not_le.mp fun h4 => hβ' ⟨h2, h4⟩⟩) hn
      have hd : α - β ≠ 0 := by rcases cases with h | h <;> intro e <;> linarith [h.1, h.2]
      have e : α + α / (α - β) * (β - α) = 0 := by field_simp; ring
      refine h' (α / (α - β)) ?_ ?_ (by rw [e]; exact ⟨le_rfl, zero_le_one⟩)
      · rcases cases with ⟨h1, h2⟩ | ⟨h1, h2⟩
        · exact div_nonneg_of_nonpos h1.le (by linarith)
        · exact div_nonneg (by linarith) (by linarith)
      · rcases cases with ⟨h1, h2⟩ | ⟨h1, h2⟩
        · rw [div_le_one_of_neg (by linarith)]; linarith
        · rw [div_le_one (by linarith)]; linarith
    set q := (d.x - c.x) * (d.x - c.x) + (d.y - c.y) * (d.y - c.y) with hqd
    have f : ∀ γ : K, (d.x - c.x) * (lerp c d γ).x + (d.y - c.y) * (lerp c d γ).y =
        (d.x - c.x) * c.x + (d.y - c.y) * c.y + γ * q := by
      intro γ; simp only [lerp, hqd]; ring
    have fd := f 1
    rw [lerp_one] at fd
    rcases both with ⟨h1, h2⟩ | ⟨h1, h2⟩
    · refine ⟨d.x - c.x, d.y - c.y, (d.x - c.x) * c.x + (d.y - c.y) * c.y + max α β / 2 * q, ⟨?_, ?_⟩, ?_, ?_⟩
      · rw [hα, f]
        have := le_max_left α β; have := max_lt h1 h2
        nlinarith
      · rw [hβ, f]
        have := le_max_right α β; have := max_lt h1 h2
        nlinarith
      · have := max_lt h1 h2
        nlinarith
      · have := max_lt h1 h2
        nlinarith
    · refine ⟨-(d.x - c.x), -(d.y - c.y), -((d.x - c.x) * c.x + (d.y - c.y) * c.y) - (1 + min α β) / 2 * q,
        ⟨?_, ?_⟩, ?_, ?_⟩
      · have := f α; rw [← hα] at this
        have := min_le_left α β; have := lt_min h1 h2
        nlinarith
      · have := f β; rw [← hβ] at this
        have := min_le_right α β; have := lt_min h1 h2
        nlinarith
      · have := lt_min h1 h2
        nlinarith
      · have := lt_min h1 h2
        nlinarith
  by_cases hx : cross a b c = cross a b d
  · by_cases h0 : cross a b c = 0
    · by_cases hu : cross c d a = 0
      · have hw : cross c d b = 0 := by
          have : cross c d b = cross c d a + (cross a b c - cross a b d) := by simp only [cross]; ring
          rw [this, hx, hu]; ring
        by_cases hcd : c = d
        · by_cases hab : a = b
          · subst hab hcd
            have hac : a ≠ c := fun e => h 0 0 le_rfl zero_le_one le_rfl zero_le_one (by rw [lerp_zero, lerp_zero, e])
            by_cases hxx : a.x = c.x
            · have hyy : a.y ≠ c.y := fun e => hac (Point.ext hxx e)
              rcases lt_or_gt_of_ne hyy with g | g
              · exact ⟨0, 1, (a.y + c.y) / 2, ⟨by linarith, by linarith⟩, by linarith, by linarith⟩
              · exact ⟨0, -1, -(a.y + c.y) / 2, ⟨by linarith, by linarith⟩, by linarith, by linarith⟩
            · rcases lt_or_gt_of_ne hxx with g | g
              · exact ⟨1, 0, (a.x + c.x) / 2, ⟨by linarith, by linarith⟩, by linarith, by linarith⟩
              · exact ⟨-1, 0, -(a.x + c.x) / 2, ⟨by linarith, by linarith⟩, by linarith, by linarith⟩
          · exact flip (line c d a b (fun r u r0 r1 u0 u1 e => h u r u0 u1 r0 r1 e.symm) hab h0 (hx ▸ h0))
        · exact line a b c d h hcd hu hw
      · refine flip (strict c d a b ?_)
        have : cross c d b = cross c d a + (cross a b c - cross a b d) := by simp only [cross]; ring
        rw [this, hx, sub_self, add_zero]
        exact mul_self_pos.mpr hu
    · refine strict a b c d ?_
      rw [← hx]
      exact mul_self_pos.mpr h0
  · set x := cross a b c with hxd
    set y := cross a b d with hyd
    set u := cross c d a with hud
    set w := cross c d b with hwd
    have huw : u - w = -(x - y) := by simp only [hxd, hyd, hud, hwd, cross]; ring
    have hd : x - y ≠ 0 := sub_ne_zero.mpr hx
    have hd' : u - w ≠ 0 := by rw [huw]; exact neg_ne_zero.mpr hd
    by_cases h1 : 0 < x * y
    · exact strict a b c d h1
    by_cases h2 : 0 < u * w
    · exact flip (strict c d a b h2)
    exfalso
    have unit : ∀ x y : K, x - y ≠ 0 → ¬ 0 < x * y → 0 ≤ x / (x - y) ∧ x / (x - y) ≤ 1 := by
      intro x y hd h
      rcases lt_or_gt_of_ne hd with g | g
      · have hx : x ≤ 0 := by by_contra hn; nlinarith
        have hy : 0 ≤ y := by by_contra hn; nlinarith
        exact ⟨div_nonneg_of_nonpos hx g.le, by rw [div_le_one_of_neg g]; linarith⟩
      · have hx : 0 ≤ x := by by_contra hn; nlinarith
        have hy : y ≤ 0 := by by_contra hn; nlinarith
        exact ⟨div_nonneg hx g.le, by rw [div_le_one g]; linarith⟩
    obtain ⟨u0, u1⟩ := unit u w hd' h2
    obtain ⟨x0, x1⟩ := unit x y hd h1
    refine h (u / (u - w)) (x / (x - y)) u0 u1 x0 x1 ?_
    have e1 : u / (u - w) = -u / (x - y) := by rw [huw, div_neg, neg_div]
    rw [e1]
    apply Point.ext
    · simp only [lerp]
      rw [div_mul_eq_mul_div, div_mul_eq_mul_div, ← sub_eq_zero]
      have : a.x + -u * (b.x - a.x) / (x - y) - (c.x + x * (d.x - c.x) / (x - y)) =
          ((a.x - c.x) * (x - y) + -u * (b.x - a.x) - x * (d.x - c.x)) / (x - y) := by field_simp; ring
      rw [this, div_eq_zero_iff]
      left
      simp only [hxd, hyd, hud, cross]; ring
    · simp only [lerp]
      rw [div_mul_eq_mul_div, div_mul_eq_mul_div, ← sub_eq_zero]
      have : a.y + -u * (b.y - a.y) / (x - y) - (c.y + x * (d.y - c.y) / (x - y)) =
          ((a.y - c.y) * (x - y) + -u * (b.y - a.y) - x * (d.y - c.y)) / (x - y) := by field_simp; ring
      rw [this, div_eq_zero_iff]
      left
      simp only [hxd, hyd, hud, cross]; ring

theorem linear_near (m n : K) {k : K} {p : Point K} (h : m * p.x + n * p.y < k) :
    Small fun δ => ∀ p' : Point K, p.Near δ p' → m * p'.x + n * p'.y < k := by
  have hs : 0 < |m| + |n| + 1 := by positivity
  refine ⟨(k - (m * p.x + n * p.y)) / (|m| + |n| + 1), div_pos (by linarith) hs, fun η hη p' hp => ?_⟩
  have h2 := (le_div_iff₀ hs).mp hη
  have h0 := hp.pos
  have h3 : m * (p'.x - p.x) ≤ |m| * η := by
    refine (le_abs_self _).trans ?_
    rw [abs_mul]; exact mul_le_mul_of_nonneg_left hp.1.le (abs_nonneg _)
  have h4 : n * (p'.y - p.y) ≤ |n| * η := by
    refine (le_abs_self _).trans ?_
    rw [abs_mul]; exact mul_le_mul_of_nonneg_left hp.2.le (abs_nonneg _)
  nlinarith

/-- Segments without common points have none after small moves. -/
theorem disjoint_near {s t : Segment K} (h : s.pts ∩ t.pts = ∅) :
    Small fun δ => ∀ s' t' : Segment K, s.Near δ s' → t.Near δ t' → s'.pts ∩ t'.pts = ∅ := by
  obtain ⟨m, n, k, ⟨h1, h2⟩, h3, h4⟩ := exists_between h
  have g3 := linear_near (-m) (-n) (k := -k) (p := t.start) (by linarith)
  have g4 := linear_near (-m) (-n) (k := -k) (p := t.finish) (by linarith)
  refine ((linear_near m n h1).and ((linear_near m n h2).and (g3.and g4))).mono fun δ hδ s' t' hs ht => ?_
  obtain ⟨k1, k2, k3, k4⟩ := hδ
  have k1 := k1 _ hs.1
  have k2 := k2 _ hs.2
  have k3 := k3 _ ht.1
  have k4 := k4 _ ht.2
  rw [Set.eq_empty_iff_forall_notMem]
  rintro z ⟨⟨r, r0, r1, rfl⟩, ⟨u, u0, u1, e⟩⟩
  have ex := congrArg Point.x e
  have ey := congrArg Point.y e
  simp only [lerp] at ex ey
  have l1 : m * (s'.start.x + r * (s'.finish.x - s'.start.x)) + n * (s'.start.y + r * (s'.finish.y - s'.start.y)) < k := by
    have := mix_lt r0 r1 k1 k2
    linarith
  have l2 : k < m * (t'.start.x + u * (t'.finish.x - t'.start.x)) + n * (t'.start.y + u * (t'.finish.y - t'.start.y)) := by
    have := mix_lt u0 u1 k3 k4
    linarith
  rw [ex, ey] at l1
  linarith

/-- Points of a segment move at most as far as its endpoints. -/
theorem lerp_near {δ : K} {s s' : Segment K} (h : s.Near δ s') {t : K} (t0 : 0 ≤ t) (t1 : t ≤ 1) :
    (lerp s.start s.finish t).Near δ (lerp s'.start s'.finish t) := by
  have key : ∀ a b a' b' : K, |a' - a| < δ → |b' - b| < δ → |a' + t * (b' - a') - (a + t * (b - a))| < δ := by
    intro a b a' b' h1 h2
    rw [abs_lt] at *
    have g1 := mix_lt t0 t1 h1.2 h2.2
    have g2 := mix_lt t0 t1 (neg_lt.mpr h1.1) (neg_lt.mpr h2.1)
    constructor <;> linarith
  exact ⟨key _ _ _ _ h.1.1 h.2.1, key _ _ _ _ h.1.2 h.2.2⟩

end Orient
