import Verif.Lemmas.Sweep.Division
import Verif.Spec.Division
import Verif.Props.Nodes
import Verif.Props.Composition
import Verif.Props.SameSetsExamples

/-! C70: errors in measured angles confuse at most `TOUCH` and `CROSS`, and rounded quotients do not matter for small
integers. -/

set_option linter.unusedSectionVars false

namespace Orient.Props

variable {K : Type} [Field K] [LinearOrder K] [IsStrictOrderedRing K] {c d : Context K}

theorem ExactOn.measuring {N : Set (Point K)} {l : List (Segment K)} (hc : c.ExactOn N l)
    (dp : Point K → Point K → Point K → Point K → K) (ds : Point K → Point K → K) : (c.measuring dp ds).ExactOn N l :=
  ⟨hc.counterclockwise, hc.clockwise, hc.contains, hc.relation, hc.intersection, hc.contourSegments, hc.segmentBox,
    hc.segmentsBox, hc.contourBox, hc.contoursBox, hc.polygonBox, hc.polygonsBox⟩

theorem relateMultisegment_blur (c : Context K) (dp : Point K → Point K → Point K → Point K → K)
    (ds : Point K → Point K → K) (a b : Multisegment K) :
    UpToCross (multisegment.relateMultisegment a b c) (multisegment.relateMultisegment a b (c.measuring dp ds)) := by
  unfold multisegment.relateMultisegment
  simp only [show (c.measuring dp ds).segmentsBox = c.segmentsBox from rfl]
  split_ifs
  · exact .inl rfl
  · exact eventsQueue.runOpenLinear_blur c dp ds _ _

theorem contourRelateMultisegment_blur (c : Context K) (dp : Point K → Point K → Point K → Point K → K)
    (ds : Point K → Point K → K) (a : Contour K) (b : Multisegment K) :
    UpToCross (contour.relateMultisegment a b c) (contour.relateMultisegment a b (c.measuring dp ds)) := by
  unfold contour.relateMultisegment
  simp only [show (c.measuring dp ds).segmentsBox = c.segmentsBox from rfl,
    show (c.measuring dp ds).contourBox = c.contourBox from rfl]
  split_ifs
  · exact .inl rfl
  · exact eventsQueue.runOpenLinear_blur c dp ds _ _

theorem upToCross_complement {x y : Py Relation} (h : UpToCross x y) :
    UpToCross (x.map Relation.complement) (y.map Relation.complement) := by
  rcases h with rfl | ⟨rfl, rfl⟩ | ⟨rfl, rfl⟩
  · exact .inl rfl
  · exact .inr (.inl ⟨rfl, rfl⟩)
  · exact .inr (.inr ⟨rfl, rfl⟩)

/-- Scalar products and distances may be arbitrarily wrong: only `TOUCH` and `CROSS` may be confused. -/
theorem C70_any {a b : Line K} (ha : a.Drawn) (hb : b.Drawn)
    (hc : c.ExactOn (nodes (a.edges ++ b.edges)) (a.edges ++ b.edges)) (hd : d.Exact) :
    UpToCross (a.relateLine c b) (a.relateLine d b) := by
  have hc' := ExactOn.measuring hc d.dotProduct d.pointsSquaredDistance
  have key := C65_lines ha hb hc' (fun _ => ⟨fun a _ b _ p _ q _ => hd.dotProduct a b p q,
    fun a _ b _ => hd.pointsSquaredDistance a b⟩) hd
  rw [← key]
  by_cases hm : a.Measures b
  · rcases a with a | a | a <;> rcases b with b | b | b <;> first | exact hm.elim | skip
    · exact relateMultisegment_blur c _ _ b a
    · exact contourRelateMultisegment_blur c _ _ b a
    · exact upToCross_complement (contourRelateMultisegment_blur c _ _ a b)
  · rw [key]
    exact .inl (C65_lines ha hb hc (fun h => absurd h hm) hd)

/-! ### rounded quotients -/

/-- Whatever division does, for multisegments. -/
theorem C70_quotient_multisegments {a b : Multisegment K} (ha : (Line.multisegment a).Drawn)
    (hb : (Line.multisegment b).Drawn)
    (hc : c.ExactOn (nodes (a.segments ++ b.segments)) (a.segments ++ b.segments)) (hd : d.Exact)
    (quotient : K → K → K) : UpToCross (division.multisegmentInMultisegment quotient a b c)
      (planar.multisegmentInMultisegment a b d) := by
  rw [division.multisegmentInMultisegment_eq]
  exact C70_any (a := .multisegment a) (b := .multisegment b) ha hb (ExactOn.measuring hc _ _) hd

/-- Whatever division does, for a multisegment and a contour. -/
theorem C70_quotient_contour {a : Multisegment K} {b : Contour K} (ha : (Line.multisegment a).Drawn) (hb : b.Drawn)
    (hc : c.ExactOn (nodes (a.segments ++ b.edgeList)) (a.segments ++ b.edgeList)) (hd : d.Exact)
    (quotient : K → K → K) : UpToCross (division.multisegmentInContour quotient a b c)
      (planar.multisegmentInContour a b d) := by
  rw [division.multisegmentInContour_eq]
  exact C70_any (a := .multisegment a) (b := .contour b) ha hb (ExactOn.measuring hc _ _) hd

/-- Exact division is what the rest of the model does. -/
theorem C70_exact_multisegments (c : Context K) (a b : Multisegment K) :
    division.multisegmentInMultisegment (· / ·) a b c = planar.multisegmentInMultisegment a b c := by
  unfold division.multisegmentInMultisegment planar.multisegmentInMultisegment multisegment.relateMultisegment
  simp only [division.runOpenLinear_exact]

/-- Exact division for a multisegment and a contour. -/
theorem C70_exact_contour (c : Context K) (a : Multisegment K) (b : Contour K) :
    division.multisegmentInContour (· / ·) a b c = planar.multisegmentInContour a b c := by
  unfold division.multisegmentInContour planar.multisegmentInContour contour.relateMultisegment
  simp only [division.runOpenLinear_exact]

/-! ### integers -/

theorem signedSquare_eq {N : Set (Point K)} (hm : c.MeasuresOn N) (hd : d.Exact) {v p a : Point K} (hv : v ∈ N)
    (hp : p ∈ N) (ha : a ∈ N) : c.signedSquare v p a / c.pointsSquaredDistance v a = d.squaredCosine v p a := by
  unfold Context.signedSquare Context.squaredCosine
  rw [hm.dotProduct v hv p hp v hv a ha, hm.pointsSquaredDistance v hv a ha, hd.dotProduct, hd.pointsSquaredDistance]

/-- Squared lengths between the points are at most `L`. -/
def Spread (N : Set (Point K)) (L : K) : Prop :=
  ∀ p ∈ N, ∀ q ∈ N, (q.x - p.x) * (q.x - p.x) + (q.y - p.y) * (q.y - p.y) ≤ L

/-- The compared number is a fraction of integers and at most `L`. -/
theorem squaredCosine_int {N : Set (Point K)} (hd : d.Exact) (hN : Integral N) {L : K} (hL : Spread N L)
    {v p a : Point K} (hv : v ∈ N) (hp : p ∈ N) (ha : a ∈ N) (hne : a ≠ v) :
    ∃ n m : ℤ, 1 ≤ m ∧ (m : K) ≤ L ∧ d.squaredCosine v p a = n / m ∧ |(n : K) / m| ≤ L := by
  obtain ⟨vx, vy, hve⟩ := hN v hv
  obtain ⟨px, py, hpe⟩ := hN p hp
  obtain ⟨ax, ay, hae⟩ := hN a ha
  have l1 := hL v hv a ha
  have l2 := hL v hv p hp
  subst hve hpe hae
  simp only at l1 l2
  set D : ℤ := (px - vx) * (ax - vx) + (py - vy) * (ay - vy) with hD
  set M : ℤ := (ax - vx) * (ax - vx) + (ay - vy) * (ay - vy) with hM
  have m1 : 1 ≤ M := by
    have h0 : 0 ≤ M := by nlinarith [mul_self_nonneg (ax - vx), mul_self_nonneg (ay - vy)]
    rcases h0.lt_or_eq with h | h
    · exact h
    · exfalso
      have h1 : (ax - vx) * (ax - vx) = 0 := by nlinarith [mul_self_nonneg (ax - vx), mul_self_nonneg (ay - vy)]
      have h2 : (ay - vy) * (ay - vy) = 0 := by nlinarith [mul_self_nonneg (ax - vx), mul_self_nonneg (ay - vy)]
      have h3 : ax = vx := by
        have := mul_self_eq_zero.mp h1
        omega
      have h4 : ay = vy := by
        have := mul_self_eq_zero.mp h2
        omega
      exact hne (by rw [h3, h4])
  have eD : ((px : K) - vx) * (ax - vx) + (py - vy) * (ay - vy) = (D : K) := by
    rw [hD]
    push_cast
    ring
  have eM : ((ax : K) - vx) * (ax - vx) + (ay - vy) * (ay - vy) = (M : K) := by
    rw [hM]
    push_cast
    ring
  have key : d.squaredCosine (⟨vx, vy⟩ : Point K) ⟨px, py⟩ ⟨ax, ay⟩ =
      ((if 0 < D then D * D else -(D * D) : ℤ) : K) / (M : K) := by
    unfold Context.squaredCosine
    rw [hd.dotProduct, hd.pointsSquaredDistance]
    simp only
    rw [eD, eM]
    by_cases h : 0 < D
    · rw [if_pos h, if_pos (show (D : K) > 0 from Int.cast_pos.mpr h)]
      push_cast
      ring
    · rw [if_neg h, if_neg (show ¬ (D : K) > 0 from fun h' => h (Int.cast_pos.mp h'))]
      push_cast
      ring
  have mpos : (0 : K) < M := by exact_mod_cast (by omega : 0 < M)
  refine ⟨if 0 < D then D * D else -(D * D), M, m1, by rw [← eM]; exact l1, key, ?_⟩
  have habs : |((if 0 < D then D * D else -(D * D) : ℤ) : K)| = (D : K) * D := by
    split_ifs
    · push_cast
      exact abs_of_nonneg (mul_self_nonneg _)
    · push_cast
      rw [abs_neg]
      exact abs_of_nonneg (mul_self_nonneg _)
  rw [abs_div, habs, abs_of_pos mpos, div_le_iff₀ mpos]
  refine le_trans ?_ (mul_le_mul_of_nonneg_right l2 mpos.le)
  rw [← eM, ← eD]
  nlinarith [mul_self_nonneg (((px : K) - vx) * (ay - vy) - (py - vy) * (ax - vx))]

/-- Different compared numbers are not rounded to the same. -/
theorem round_lt_iff {round : K → K} {ε L : K} (hr : Rounds round ε) (h0 : 0 ≤ ε) (hε : 2 * ε * (L * L * L) < 1)
    {n m n' m' : ℤ} (m1 : 1 ≤ m) (m1' : 1 ≤ m') (mL : (m : K) ≤ L) (mL' : (m' : K) ≤ L) (kL : |(n : K) / m| ≤ L)
    (kL' : |(n' : K) / m'| ≤ L) : round ((n : K) / m) < round ((n' : K) / m') ↔ (n : K) / m < (n' : K) / m' := by
  have p : (0 : K) < m := by exact_mod_cast (by omega : 0 < m)
  have p' : (0 : K) < m' := by exact_mod_cast (by omega : 0 < m')
  have pL : 0 < L := p.trans_le mL
  have strict : ∀ {n m n' m' : ℤ}, (0 : K) < m → (0 : K) < m' → (m : K) ≤ L → (m' : K) ≤ L → |(n : K) / m| ≤ L →
      |(n' : K) / m'| ≤ L → (n : K) / m < (n' : K) / m' → round ((n : K) / m) < round ((n' : K) / m') := by
    intro n m n' m' p p' mL mL' kL kL' h
    have h1 := (abs_le.mp (hr ((n : K) / m))).2
    have h2 := (abs_le.mp (hr ((n' : K) / m'))).1
    have h3 : 1 ≤ ((n' : K) / m' - n / m) * (m * m') := by
      have h4 : (n : K) * m' < n' * m := by rwa [div_lt_div_iff₀ p p'] at h
      have h5 : n * m' + 1 ≤ n' * m := by exact_mod_cast h4
      have h6 : (n : K) * m' + 1 ≤ n' * m := by exact_mod_cast h5
      have h7 : ((n' : K) / m' - n / m) * (m * m') = n' * m - n * m' := by
        field_simp
      rw [h7]
      linarith
    have gap : 0 < (n' : K) / m' - n / m := sub_pos.mpr h
    have h8 : (m : K) * m' ≤ L * L := mul_le_mul mL mL' p'.le pL.le
    have h9 : 1 ≤ ((n' : K) / m' - n / m) * (L * L) := h3.trans (mul_le_mul_of_nonneg_left h8 gap.le)
    have e1 : ε * |(n : K) / m| ≤ ε * L := mul_le_mul_of_nonneg_left kL h0
    have e2 : ε * |(n' : K) / m'| ≤ ε * L := mul_le_mul_of_nonneg_left kL' h0
    have h10 : 2 * ε * L < (n' : K) / m' - n / m := by
      by_contra hcon
      have := mul_le_mul_of_nonneg_right (not_lt.mp hcon) (mul_pos pL pL).le
      nlinarith
    linarith
  constructor
  · intro h
    rcases lt_trichotomy ((n : K) / m) ((n' : K) / m') with h' | h' | h'
    · exact h'
    · rw [h'] at h
      exact absurd h (lt_irrefl _)
    · exact absurd h (strict p' p mL' mL kL' kL h').not_gt
  · exact strict p p' mL mL' kL kL'

theorem dividing_alike {N : Set (Point K)} (hm : c.MeasuresOn N) (hd : d.Exact) (hN : Integral N) {L ε : K}
    (hL : Spread N L) {round : K → K} (hr : Rounds round ε) (h0 : 0 ≤ ε) (hε : 2 * ε * (L * L * L) < 1) :
    Alike (c.dividing fun x y => round (x / y)) d N := by
  intro v hv p hp a ha b hb _ hav hbv
  have key : ∀ a, (c.dividing fun x y => round (x / y)).squaredCosine v p a =
      (2 * (if round (c.signedSquare v p a / c.pointsSquaredDistance v a) > 0 then 1 else 0) - 1) *
        (round (c.signedSquare v p a / c.pointsSquaredDistance v a) *
          round (c.signedSquare v p a / c.pointsSquaredDistance v a)) / 1 := fun a => rfl
  rw [key, key, signed_square_lt_iff, signedSquare_eq hm hd hv hp ha, signedSquare_eq hm hd hv hp hb]
  obtain ⟨n, m, m1, mL, e, kL⟩ := squaredCosine_int hd hN hL hv hp ha hav
  obtain ⟨n', m', m1', mL', e', kL'⟩ := squaredCosine_int hd hN hL hv hp hb hbv
  rw [e, e']
  exact round_lt_iff hr h0 hε m1 m1' mL mL' kL kL'

/-- Rounding of quotients does not matter for multisegments with vertices and common points which are near each other
and have integer coordinates. -/
theorem C70_integers_multisegments {a b : Multisegment K} (ha : (Line.multisegment a).Drawn)
    (hb : (Line.multisegment b).Drawn)
    (hc : c.ExactOn (nodes (a.segments ++ b.segments)) (a.segments ++ b.segments))
    (hm : c.MeasuresOn (nodes (a.segments ++ b.segments))) (hd : d.Exact)
    (hN : Integral (nodes (a.segments ++ b.segments))) {L ε : K} (hL : Spread (nodes (a.segments ++ b.segments)) L)
    {round : K → K} (hr : Rounds round ε) (h0 : 0 ≤ ε) (hε : 2 * ε * (L * L * L) < 1) :
    division.multisegmentInMultisegment (fun x y => round (x / y)) a b c =
      planar.multisegmentInMultisegment a b d := by
  rw [division.multisegmentInMultisegment_eq]
  have S : Same (c.dividing fun x y => round (x / y)) d (nodes (a.segments ++ b.segments)) (a.segments ++ b.segments) :=
    ⟨ExactOn.measuring hc _ _, hd, subset_rfl⟩
  exact S.multisegments (dividing_alike hm hd hN hL hr h0 hε) (List.subset_append_right _ _)
    (List.subset_append_left _ _) hb.1 ha.1 hb.2 ha.2

/-- The same for a multisegment and a contour. -/
theorem C70_integers_contour {a : Multisegment K} {b : Contour K} (ha : (Line.multisegment a).Drawn) (hb : b.Drawn)
    (hc : c.ExactOn (nodes (a.segments ++ b.edgeList)) (a.segments ++ b.edgeList))
    (hm : c.MeasuresOn (nodes (a.segments ++ b.edgeList))) (hd : d.Exact)
    (hN : Integral (nodes (a.segments ++ b.edgeList))) {L ε : K} (hL : Spread (nodes (a.segments ++ b.edgeList)) L)
    {round : K → K} (hr : Rounds round ε) (h0 : 0 ≤ ε) (hε : 2 * ε * (L * L * L) < 1) :
    division.multisegmentInContour (fun x y => round (x / y)) a b c = planar.multisegmentInContour a b d := by
  rw [division.multisegmentInContour_eq]
  have S : Same (c.dividing fun x y => round (x / y)) d (nodes (a.segments ++ b.edgeList)) (a.segments ++ b.edgeList) :=
    ⟨ExactOn.measuring hc _ _, hd, subset_rfl⟩
  exact S.contourMultisegment (dividing_alike hm hd hN hL hr h0 hε) (List.subset_append_right _ _)
    (List.subset_append_left _ _) hb ha.1 ha.2

/-! ### double precision -/

theorem halfEven_error (x : ℚ) : |(halfEven x : ℚ) - x| ≤ 1 / 2 := by
  have h1 := Int.floor_le x
  have h2 := Int.lt_floor_add_one x
  unfold halfEven
  split_ifs with h3 h4 <;> rw [abs_le] <;> push_cast <;> constructor <;> linarith

/-- The relative error of rounding to `bits` significant bits. -/
theorem toBits_rounds (bits : ℕ) : Rounds (toBits bits) (1 / 2 ^ bits) := by
  intro x
  unfold toBits
  set e : ℤ := Int.log 2 |x| + 1 - bits with he
  have p : (0 : ℚ) < 2 ^ e := zpow_pos (by norm_num) e
  have h1 := halfEven_error (x / 2 ^ e)
  have h2 : |(halfEven (x / 2 ^ e) : ℚ) * 2 ^ e - x| = |(halfEven (x / 2 ^ e) : ℚ) - x / 2 ^ e| * 2 ^ e := by
    rw [← abs_of_pos p, ← abs_mul, abs_of_pos p, sub_mul, div_mul_cancel₀ _ p.ne']
  by_cases hx : x = 0
  · subst hx
    simp [halfEven]
  have h3 : (2 : ℚ) ^ (Int.log 2 |x|) ≤ |x| := by
    have := Int.zpow_log_le_self (b := 2) (r := |x|) (by norm_num) (abs_pos.mpr hx)
    exact_mod_cast this
  have h4 : (2 : ℚ) ^ e = 2 ^ (Int.log 2 |x|) * 2 / 2 ^ bits := by
    rw [he, zpow_sub₀ (by norm_num), zpow_add₀ (by norm_num), zpow_one, zpow_natCast]
  rw [h2]
  calc |(halfEven (x / 2 ^ e) : ℚ) - x / 2 ^ e| * 2 ^ e ≤ 1 / 2 * 2 ^ e := mul_le_mul_of_nonneg_right h1 p.le
    _ = 1 / 2 ^ bits * 2 ^ (Int.log 2 |x|) := by rw [h4]; field_simp
    _ ≤ 1 / 2 ^ bits * |x| := mul_le_mul_of_nonneg_left h3 (by positivity)

theorem spread_of_bounded {N : Set (Point ℚ)} (h : ∀ p ∈ N, |p.x| ≤ 143 ∧ |p.y| ≤ 143) : Spread N 163592 := by
  intro p hp q hq
  obtain ⟨a1, a2⟩ := h p hp
  obtain ⟨b1, b2⟩ := h q hq
  rw [abs_le] at a1 a2 b1 b2
  have h1 : (q.x - p.x) * (q.x - p.x) ≤ 286 * 286 := by nlinarith
  have h2 : (q.y - p.y) * (q.y - p.y) ≤ 286 * 286 := by nlinarith
  linarith

/-- Quotients may be rounded to double precision if coordinates of vertices and common points are integers from -143
to 143. -/
theorem C70_double_multisegments {c d : Context ℚ} {a b : Multisegment ℚ} (ha : (Line.multisegment a).Drawn)
    (hb : (Line.multisegment b).Drawn)
    (hc : c.ExactOn (nodes (a.segments ++ b.segments)) (a.segments ++ b.segments))
    (hm : c.MeasuresOn (nodes (a.segments ++ b.segments))) (hd : d.Exact)
    (hN : Integral (nodes (a.segments ++ b.segments)))
    (hB : ∀ p ∈ nodes (a.segments ++ b.segments), |p.x| ≤ 143 ∧ |p.y| ≤ 143) :
    division.multisegmentInMultisegment (fun x y => toBits 53 (x / y)) a b c =
      planar.multisegmentInMultisegment a b d :=
  C70_integers_multisegments ha hb hc hm hd hN (spread_of_bounded hB) (toBits_rounds 53) (by norm_num) (by norm_num)

/-- The same for a multisegment and a contour. -/
theorem C70_double_contour {c d : Context ℚ} {a : Multisegment ℚ} {b : Contour ℚ} (ha : (Line.multisegment a).Drawn)
    (hb : b.Drawn)
    (hc : c.ExactOn (nodes (a.segments ++ b.edgeList)) (a.segments ++ b.edgeList))
    (hm : c.MeasuresOn (nodes (a.segments ++ b.edgeList))) (hd : d.Exact)
    (hN : Integral (nodes (a.segments ++ b.edgeList)))
    (hB : ∀ p ∈ nodes (a.segments ++ b.edgeList), |p.x| ≤ 143 ∧ |p.y| ≤ 143) :
    division.multisegmentInContour (fun x y => toBits 53 (x / y)) a b c = planar.multisegmentInContour a b d :=
  C70_integers_contour ha hb hc hm hd hN (spread_of_bounded hB) (toBits_rounds 53) (by norm_num) (by norm_num)

end Orient.Props
