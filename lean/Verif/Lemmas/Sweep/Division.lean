import Verif.Lemmas.Sweep.Agree
import Verif.Lemmas.Sweep.Blur
import Verif.Model.Division

/-! The sweep which rounds quotients is the sweep which divides exactly with other scalar products and distances. -/

set_option linter.unusedSectionVars false

namespace Orient

variable {K : Type} [Field K] [LinearOrder K]

/-- What the code divides, `/repo/orient/core/events_queue.py:327-329`. -/
def Context.signedSquare (c : Context K) (v p a : Point K) : K :=
  (2 * (if c.dotProduct v p v a > 0 then 1 else 0) - 1) * (c.dotProduct v p v a * c.dotProduct v p v a)

/-- Quotients instead of scalar products, ones instead of distances. -/
def Context.dividing (c : Context K) (quotient : K → K → K) : Context K :=
  c.measuring (fun v p _ a => quotient (c.signedSquare v p a) (c.pointsSquaredDistance v a)) fun _ _ => 1

variable [IsStrictOrderedRing K]

theorem signed_square_lt_iff (x y : K) :
    (2 * (if x > 0 then 1 else 0) - 1) * (x * x) / 1 < (2 * (if y > 0 then 1 else 0) - 1) * (y * y) / 1 ↔ x < y := by
  have key : ∀ z : K, (2 * (if z > 0 then (1 : K) else 0) - 1) * (z * z) / 1 = z * |z| := by
    intro z
    split_ifs with h
    · rw [abs_of_pos h]; ring
    · rw [abs_of_nonpos (not_lt.mp h)]; ring
  rw [key, key]
  rcases le_total 0 x with hx | hx <;> rcases le_total 0 y with hy | hy
  · rw [abs_of_nonneg hx, abs_of_nonneg hy]
    exact (mul_self_lt_mul_self_iff hx hy).symm
  · rw [abs_of_nonneg hx, abs_of_nonpos hy]
    constructor <;> intro h <;> nlinarith [mul_self_nonneg x, mul_self_nonneg y]
  · rw [abs_of_nonpos hx, abs_of_nonneg hy]
    constructor
    · intro h
      rcases hx.lt_or_eq with h1 | rfl
      · linarith
      · rcases hy.lt_or_eq with h2 | rfl
        · exact h2
        · simp at h
    · intro h
      rcases hx.lt_or_eq with h1 | rfl
      · nlinarith [mul_self_nonneg y, mul_pos_of_neg_of_neg h1 h1]
      · nlinarith
  · rw [abs_of_nonpos hx, abs_of_nonpos hy]
    have := (mul_self_lt_mul_self_iff (neg_nonneg.mpr hy) (neg_nonneg.mpr hx)).symm
    constructor
    · intro h
      have h1 : -y * -y < -x * -x := by linarith
      linarith [this.mp h1]
    · intro h
      have h1 := this.mpr (neg_lt_neg h)
      linarith

namespace division

open eventsQueue

variable (quotient : K → K → K) (c : Context K)

theorem detectCrossingAngles_eq (s : State K) (group : List Ev) :
    detectCrossingAngles quotient c s group = eventsQueue.detectCrossingAngles (c.dividing quotient) s group := by
  have key : ∀ p goal goals, minBy (signedSquaredCosine quotient c s p) goal goals =
      minBy (eventsQueue.signedSquaredCosine (c.dividing quotient) s p) goal goals := by
    intro p goal goals
    refine minBy_congr fun e _ e' _ => ?_
    exact (signed_square_lt_iff (signedSquaredCosine quotient c s p e) (signedSquaredCosine quotient c s p e')).symm
  unfold detectCrossingAngles eventsQueue.detectCrossingAngles
  simp only [key]
  rfl

theorem closeGroup_eq (s : State K) (group : List Ev) :
    closeGroup quotient c s group = eventsQueue.closeGroup true (c.dividing quotient) s group := by
  unfold closeGroup eventsQueue.closeGroup
  rw [detectCrossingAngles_eq, if_pos rfl]

theorem mapRelation_id (s : State K) : s.mapRelation id = s := rfl

theorem peek?_eq (s : State K) : peek? c s = peek? (c.dividing quotient) s :=
  (peek?_blur id c _ _ s).symm

theorem handleLinear_eq (s : State K) (line : List Nat) (e : Ev) :
    handleLinear c s line e = handleLinear (c.dividing quotient) s line e := by
  have := handleLinear_blur id c (fun v p _ a => quotient (c.signedSquare v p a) (c.pointsSquaredDistance v a))
    (fun _ _ => 1) s line e
  rw [mapRelation_id] at this
  unfold Context.dividing
  rw [this]
  cases handleLinear c s line e <;> rfl

theorem sweepLoop_eq (stopX : K) (fuel : Nat) (s : State K) (line : List Nat) (start : Option (Point K))
    (group : List Ev) : sweepLoop quotient c stopX fuel s line start group =
      eventsQueue.sweepLoop true (c.dividing quotient) stopX fuel s line start group := by
  induction fuel generalizing s line start group with
  | zero => rfl
  | succ fuel ih =>
    unfold sweepLoop eventsQueue.sweepLoop
    simp only [closeGroup_eq, peek?_eq quotient c, handleLinear_eq quotient c, ih, if_true]
    rfl

theorem runOpenLinear_eq (s : State K) (stopX : K) :
    runOpenLinear quotient c s stopX = Orient.runOpenLinear (c.dividing quotient) s stopX := by
  unfold runOpenLinear Orient.runOpenLinear processing.processOpenLinearQueue sweep eventsQueue.sweep
    processing.peekFromTest
  simp only [sweepLoop_eq, peek?_eq quotient c]

theorem multisegmentInMultisegment_eq (a b : Multisegment K) :
    multisegmentInMultisegment quotient a b c = planar.multisegmentInMultisegment a b (c.dividing quotient) := by
  unfold multisegmentInMultisegment planar.multisegmentInMultisegment multisegment.relateMultisegment
  simp only [runOpenLinear_eq]
  rfl

theorem multisegmentInContour_eq (a : Multisegment K) (b : Contour K) :
    multisegmentInContour quotient a b c = planar.multisegmentInContour a b (c.dividing quotient) := by
  unfold multisegmentInContour planar.multisegmentInContour contour.relateMultisegment
  simp only [runOpenLinear_eq]
  rfl

/-! ### exact division -/

theorem sweepLoop_exact (stopX : K) (fuel : Nat) (s : State K) (line : List Nat) (start : Option (Point K))
    (group : List Ev) : sweepLoop (· / ·) c stopX fuel s line start group =
      eventsQueue.sweepLoop true c stopX fuel s line start group := by
  induction fuel generalizing s line start group with
  | zero => rfl
  | succ fuel ih =>
    unfold sweepLoop eventsQueue.sweepLoop
    simp only [ih, if_true]
    rfl

theorem runOpenLinear_exact (s : State K) (stopX : K) :
    runOpenLinear (· / ·) c s stopX = Orient.runOpenLinear c s stopX := by
  unfold runOpenLinear Orient.runOpenLinear sweep eventsQueue.sweep
  rw [sweepLoop_exact]

end division

end Orient
