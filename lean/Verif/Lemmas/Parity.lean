import Verif.Lemmas.Geometry
import Verif.Lemmas.Contour
import Mathlib.Algebra.Group.Nat.Even
import Mathlib.Data.List.Count

/-!
The half-open crossing rule with respect to a ray of arbitrary direction and its parity over a cycle.
-/

set_option linter.unusedSectionVars false

namespace Orient

variable {K : Type} [Field K] [LinearOrder K] [IsStrictOrderedRing K]

/-- Twice the signed distance of `v` from the line through `p` with direction `d`. -/
def side (p d v : Point K) : K := d.x * (v.y - p.y) - d.y * (v.x - p.x)

/-- The edge from `a` to `b` crosses the ray from `p` with direction `d` (half-open rule: the line
belongs to its right side). -/
def HalfCross (p d a b : Point K) : Prop :=
  (¬ 0 < side p d a ∧ 0 < side p d b ∧ 0 < cross p a b) ∨
  (¬ 0 < side p d b ∧ 0 < side p d a ∧ cross p a b < 0)

theorem HalfCross.symm_iff (p d a b : Point K) : HalfCross p d a b ↔ HalfCross p d b a := by
  unfold HalfCross
  rw [cross_swap p a b]
  simp only [neg_pos, neg_neg_iff_pos]
  tauto

theorem side_identity_y (p d a b : Point K) :
    d.y * cross p a b = (a.y - p.y) * side p d b - (b.y - p.y) * side p d a := by
  simp only [cross, side]; ring

theorem side_identity_x (p d a b : Point K) :
    d.x * cross p a b = (a.x - p.x) * side p d b - (b.x - p.x) * side p d a := by
  simp only [cross, side]; ring

/-- An edge which straddles a line through `p` and is collinear with `p` contains `p`. -/
theorem mem_of_straddle {p d a b : Point K} (ha : ¬ 0 < side p d a) (hb : 0 < side p d b)
    (hX : cross p a b = 0) : p ∈ (⟨a, b⟩ : Segment K).pts := by
  have ha := not_lt.mp ha
  have hD : 0 < side p d b - side p d a := by linarith
  refine ⟨-side p d a / (side p d b - side p d a), ?_, ?_, ?_⟩
  · apply div_nonneg _ hD.le; linarith
  · rw [div_le_one hD]; linarith
  · have hx := side_identity_x p d a b
    have hy := side_identity_y p d a b
    rw [hX, mul_zero] at hx hy
    apply Point.ext
    · simp only [lerp]; field_simp; linear_combination hx
    · simp only [lerp]; field_simp; linear_combination hy

theorem cross_ne_zero_of_straddle {p d a b : Point K} (hp : p ∉ (⟨a, b⟩ : Segment K).pts)
    (h : ¬ (0 < side p d a ↔ 0 < side p d b)) : 0 < cross p a b ∨ cross p a b < 0 := by
  rcases lt_trichotomy (cross p a b) 0 with hX | hX | hX
  · exact Or.inr hX
  · exfalso
    by_cases ha : 0 < side p d a
    · have hb : ¬ 0 < side p d b := fun hb => h ⟨fun _ => hb, fun _ => ha⟩
      apply hp
      have := mem_of_straddle hb ha (by rw [cross_swap, hX, neg_zero])
      rwa [← Segment.pts_reverse] at this
    · have hb : 0 < side p d b := by
        by_contra hb; exact h ⟨fun h => absurd h ha, fun h => absurd h hb⟩
      exact hp (mem_of_straddle ha hb hX)
  · exact Or.inl hX

/-- The cross product of two directions. -/
def det (e d : Point K) : K := e.x * d.y - e.y * d.x

theorem side_identity (p e d a b : Point K) :
    det e d * cross p a b = side p e a * side p d b - side p e b * side p d a := by
  simp only [cross, side, det]; ring

/-- The cone between the rays with directions `e` and `d`, with suitable boundary. -/
def Cone (p e d v : Point K) : Prop :=
  (0 < det e d ∧ 0 < side p e v ∧ ¬ 0 < side p d v) ∨
  (det e d < 0 ∧ ¬ 0 < side p e v ∧ 0 < side p d v)

theorem bool_clauses_pos {A B S T P N : Prop} (c1 : ¬ (P ∧ N)) (c2 : ¬ (A ↔ B) → P ∨ N)
    (c3 : ¬ (S ↔ T) → P ∨ N) (cP : P → ¬ (¬ (A ↔ T) ∧ (B ↔ S)))
    (cN : N → ¬ ((A ↔ T) ∧ ¬ (B ↔ S))) :
    (((¬ A ∧ B ∧ P) ∨ (¬ B ∧ A ∧ N)) ↔ ((¬ S ∧ T ∧ P) ∨ (¬ T ∧ S ∧ N))) ↔
      ((A ∧ ¬ S) ↔ (B ∧ ¬ T)) := by
  by_cases A <;> by_cases B <;> by_cases S <;> by_cases T <;> by_cases P <;> by_cases N <;> simp_all

theorem bool_clauses_neg {A B S T P N : Prop} (c1 : ¬ (P ∧ N)) (c2 : ¬ (A ↔ B) → P ∨ N)
    (c3 : ¬ (S ↔ T) → P ∨ N) (cP : P → ¬ ((A ↔ T) ∧ ¬ (B ↔ S)))
    (cN : N → ¬ (¬ (A ↔ T) ∧ (B ↔ S))) :
    (((¬ A ∧ B ∧ P) ∨ (¬ B ∧ A ∧ N)) ↔ ((¬ S ∧ T ∧ P) ∨ (¬ T ∧ S ∧ N))) ↔
      ((¬ A ∧ S) ↔ (¬ B ∧ T)) := by
  by_cases A <;> by_cases B <;> by_cases S <;> by_cases T <;> by_cases P <;> by_cases N <;> simp_all

theorem mul_nonpos_of_sign {u v : K} (h : ¬ (0 < u ↔ 0 < v)) : u * v ≤ 0 := by
  by_cases hu : 0 < u
  · have hv : ¬ 0 < v := fun hv => h ⟨fun _ => hv, fun _ => hu⟩
    exact mul_nonpos_of_nonneg_of_nonpos hu.le (not_lt.mp hv)
  · have hv : 0 < v := by by_contra hv; exact h ⟨fun h => absurd h hu, fun h => absurd h hv⟩
    exact mul_nonpos_of_nonpos_of_nonneg (not_lt.mp hu) hv.le

theorem mul_nonneg_of_sign {u v : K} (h : 0 < u ↔ 0 < v) : 0 ≤ u * v := by
  by_cases hu : 0 < u
  · exact (mul_pos hu (h.mp hu)).le
  · exact mul_nonneg_of_nonpos_of_nonpos (not_lt.mp hu) (not_lt.mp (fun hv => hu (h.mpr hv)))

/-- Crossing the ray with direction `e` and crossing the ray with direction `d` agree for an edge iff
its endpoints are on the same side of the boundary of the cone between the rays. -/
theorem halfCross_iff_cone {p e d a b : Point K} (hd : det e d ≠ 0)
    (hp : p ∉ (⟨a, b⟩ : Segment K).pts) :
    (HalfCross p e a b ↔ HalfCross p d a b) ↔ (Cone p e d a ↔ Cone p e d b) := by
  have c1 : ¬ (0 < cross p a b ∧ cross p a b < 0) := fun h => lt_asymm h.1 h.2
  have c2 := cross_ne_zero_of_straddle (d := e) hp
  have c3 := cross_ne_zero_of_straddle (d := d) hp
  have idy := side_identity p e d a b
  rcases lt_or_gt_of_ne hd with hdy | hdy
  · have e : ∀ v, Cone p e d v ↔ (¬ 0 < side p e v ∧ 0 < side p d v) := by
      intro v; simp [Cone, hdy, not_lt.mpr hdy.le]
    rw [e, e]
    refine bool_clauses_neg c1 c2 c3 ?_ ?_
    · rintro hP ⟨h1, h2⟩
      have := mul_nonneg_of_sign h1
      have := mul_nonpos_of_sign h2
      have := mul_neg_of_neg_of_pos hdy hP
      linarith
    · rintro hN ⟨h1, h2⟩
      have := mul_nonpos_of_sign h1
      have := mul_nonneg_of_sign h2
      have := mul_pos_of_neg_of_neg hdy hN
      linarith
  · have e : ∀ v, Cone p e d v ↔ (0 < side p e v ∧ ¬ 0 < side p d v) := by
      intro v; simp [Cone, hdy, not_lt.mpr hdy.le]
    rw [e, e]
    refine bool_clauses_pos c1 c2 c3 ?_ ?_
    · rintro hP ⟨h1, h2⟩
      have := mul_nonpos_of_sign h1
      have := mul_nonneg_of_sign h2
      have := mul_pos hdy hP
      linarith
    · rintro hN ⟨h1, h2⟩
      have := mul_nonneg_of_sign h1
      have := mul_nonpos_of_sign h2
      have := mul_neg_of_pos_of_neg hdy hN
      linarith

/-! ### parity over cycles -/

open Classical in
/-- Two ways of counting agree in parity when their difference is a coboundary. -/
theorem countP_parity {α β : Type} (l l' : List α) (f : α → α → β) (P Q : β → Prop) (W : α → Prop)
    (h : ∀ x ∈ List.zipWith f l l', True → ∀ a b, x = f a b → ((P x ↔ Q x) ↔ (W a ↔ W b)))
    (hl : l.length = l'.length) :
    (Even ((List.zipWith f l l').countP (fun x => decide (P x))) ↔
      Even ((List.zipWith f l l').countP (fun x => decide (Q x)))) ↔
    (Even (l.countP (fun x => decide (W x))) ↔ Even (l'.countP (fun x => decide (W x)))) := by
  induction l generalizing l' with
  | nil => cases l' with
    | nil => simp
    | cons _ _ => simp at hl
  | cons a l ih =>
    cases l' with
    | nil => simp at hl
    | cons b l' =>
      have ih := ih l' (fun x hx t a b => h x (by simp [hx]) t a b) (by simpa using hl)
      have h0 := h (f a b) (by simp) trivial a b rfl
      simp only [List.zipWith_cons_cons, List.countP_cons, decide_eq_true_eq]
      by_cases hP : P (f a b) <;> by_cases hQ : Q (f a b) <;> by_cases hA : W a <;>
        by_cases hB : W b <;> simp only [hP, hQ, hA, hB, if_true, if_false, Nat.even_add_one,
          Nat.add_zero] at h0 ⊢ <;> tauto

open Classical in
/-- The parity of the number of edges of a cycle crossing a ray does not depend on its direction. -/
theorem even_halfCross_of_det {c : Contour K} {p e d : Point K} (hd : det e d ≠ 0)
    (hp : p ∉ c.pts) :
    Even (c.edgeList.countP (fun s => decide (HalfCross p e s.start s.finish))) ↔
    Even (c.edgeList.countP (fun s => decide (HalfCross p d s.start s.finish))) := by
  have key := countP_parity (c.vertices.rotate (c.vertices.length - 1)) c.vertices Segment.mk
    (fun s => HalfCross p e s.start s.finish) (fun s => HalfCross p d s.start s.finish)
    (Cone p e d) ?_ (by simp)
  · refine key.mpr ?_
    rw [(List.rotate_perm _ _).countP_eq]
  · rintro x hx - a b rfl
    apply halfCross_iff_cone hd
    intro hm
    exact hp ⟨_, hx, hm⟩

theorem halfCross_congr_direction {p e d a b : Point K}
    (h : ∀ v, 0 < side p e v ↔ 0 < side p d v) : HalfCross p e a b ↔ HalfCross p d a b := by
  unfold HalfCross; rw [h, h]

open Classical in
theorem even_halfCross {c : Contour K} {p e d : Point K} (he : e.x ≠ 0 ∨ e.y ≠ 0)
    (hd : d.x ≠ 0 ∨ d.y ≠ 0) (hp : p ∉ c.pts) :
    Even (c.edgeList.countP (fun s => decide (HalfCross p e s.start s.finish))) ↔
    Even (c.edgeList.countP (fun s => decide (HalfCross p d s.start s.finish))) := by
  by_cases h : det e d = 0
  · -- turn by a right angle first
    have pos : ∀ v : Point K, v.x ≠ 0 ∨ v.y ≠ 0 → 0 < v.x * v.x + v.y * v.y := by
      rintro v (h | h)
      · have := mul_self_pos.mpr h; have := mul_self_nonneg v.y; linarith
      · have := mul_self_pos.mpr h; have := mul_self_nonneg v.x; linarith
    have h1 : det e ⟨-e.y, e.x⟩ ≠ 0 := by
      have := pos e he
      simp only [det]; intro h; linarith
    have h2 : det (⟨-e.y, e.x⟩ : Point K) d ≠ 0 := by
      simp only [det] at h ⊢
      intro h'
      have e1 : (e.x * e.x + e.y * e.y) * d.x = 0 := by linear_combination -e.x * h' - e.y * h
      have e2 : (e.x * e.x + e.y * e.y) * d.y = 0 := by linear_combination e.x * h - e.y * h'
      have := (pos e he).ne'
      rcases hd with hd | hd
      · exact (mul_ne_zero this hd) e1
      · exact (mul_ne_zero this hd) e2
    exact (even_halfCross_of_det h1 hp).trans (even_halfCross_of_det h2 hp)
  · exact even_halfCross_of_det h hp

end Orient
