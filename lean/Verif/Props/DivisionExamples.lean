import Verif.Props.Division
import Verif.Props.NodesExamples

/-! Examples for C70. -/

namespace Orient.Props

/-- Two nearly parallel segments. -/
def narrow (n : ℚ) : Multisegment ℚ := ⟨[⟨⟨0, 0⟩, ⟨n, 0⟩⟩, ⟨⟨0, 0⟩, ⟨n, 1⟩⟩]⟩

/-- A segment between them and a segment outside of the angle. -/
def through (n m : ℚ) : Multisegment ℚ := ⟨[⟨⟨0, 0⟩, ⟨m, 1⟩⟩, ⟨⟨0, 0⟩, ⟨-1, 1⟩⟩, ⟨⟨2, -1⟩, ⟨n, -1⟩⟩]⟩

/-- The nearest point with integer coordinates from -143 to 143 to the left and below. -/
def small (p : Point ℚ) : Point ℚ := ⟨max (-143) (min 143 ⌊p.x⌋), max (-143) (min 143 ⌊p.y⌋)⟩

theorem small_integral {N : Set (Point ℚ)} (h : ∀ p ∈ N, small p = p) :
    Integral N ∧ ∀ p ∈ N, |p.x| ≤ 143 ∧ |p.y| ≤ 143 := by
  constructor
  · intro p hp
    refine ⟨max (-143) (min 143 ⌊p.x⌋), max (-143) (min 143 ⌊p.y⌋), ?_⟩
    have := h p hp
    unfold small at this
    push_cast
    exact this.symm
  · intro p hp
    rw [← h p hp]
    unfold small
    simp only [abs_le]
    refine ⟨⟨le_max_left _ _, max_le (by norm_num) (min_le_left _ _)⟩, le_max_left _ _,
      max_le (by norm_num) (min_le_left _ _)⟩

/-- For integers up to 143 quotients rounded to double precision are as good as exact ones: here they differ by less
than one. -/
theorem C70_double_example :
    division.multisegmentInMultisegment (fun x y => toBits 53 (x / y)) (through 142 141) (narrow 140)
      (reference.context : Context ℚ) = planar.multisegmentInMultisegment (through 142 141) (narrow 140)
      (reference.context : Context ℚ) ∧
    planar.multisegmentInMultisegment (through 142 141) (narrow 140) (reference.context : Context ℚ) = .ok .cross := by
  have hs := small_integral (N := nodes ((through 142 141).segments ++ (narrow 140).segments))
    (nodes_of_check (by decide +kernel) (by decide +kernel) (by decide +kernel))
  have ex : (reference.context : Context ℚ).Exact := reference.context_exact
  have hl : ∀ e ∈ (through 142 141).segments ++ (narrow 140).segments, e.start ≠ e.finish := by decide +kernel
  exact ⟨C70_double_multisegments (c := reference.context) (d := reference.context)
    ⟨fun e he => hl e (List.mem_append_left _ he), by decide +kernel⟩ ⟨fun e he => hl e (List.mem_append_right _ he),
      by decide +kernel⟩
    (rounding_exactOn (d := reference.context) ex (round := id) hl subset_rfl fun _ _ => rfl)
    ⟨fun a _ b _ p _ q _ => ex.dotProduct a b p q, fun a _ b _ => ex.pointsSquaredDistance a b⟩ ex hs.1 hs.2,
    by decide +kernel⟩

/-- For integers about 10⁸ they are not: `TOUCH` is answered although the right answer is `CROSS`. -/
theorem C70_double_counterexample :
    (Line.multisegment (narrow (10 ^ 8))).Valid ∧ (Line.multisegment (through (10 ^ 8) (2 * 10 ^ 8))).Valid ∧
    division.multisegmentInMultisegment (fun x y => toBits 53 (x / y)) (through (10 ^ 8) (2 * 10 ^ 8)) (narrow (10 ^ 8))
      (reference.context : Context ℚ) = .ok .touch ∧
    planar.multisegmentInMultisegment (through (10 ^ 8) (2 * 10 ^ 8)) (narrow (10 ^ 8))
      (reference.context : Context ℚ) = .ok .cross :=
  ⟨⟨segmentsValid_of_check (by decide +kernel), by decide +kernel⟩,
    ⟨segmentsValid_of_check (by decide +kernel), by decide +kernel⟩, by decide +kernel,
    by decide +kernel⟩

/-- A context which measures nothing is exact for everything but angles. -/
theorem C70_any_example :
    UpToCross ((Line.multisegment (through 142 141)).relateLine ((reference.context : Context ℚ).measuring
      (fun _ _ _ _ => 0) fun _ _ => 0) (.multisegment (narrow 140)))
      ((Line.multisegment (through 142 141)).relateLine (reference.context : Context ℚ) (.multisegment (narrow 140))) ∧
    (Line.multisegment (through 142 141)).relateLine ((reference.context : Context ℚ).measuring
      (fun _ _ _ _ => 0) fun _ _ => 0) (.multisegment (narrow 140)) = .ok .touch := by
  have ex : (reference.context : Context ℚ).Exact := reference.context_exact
  have hl : ∀ e ∈ (through 142 141).segments ++ (narrow 140).segments, e.start ≠ e.finish := by decide +kernel
  exact ⟨C70_any ⟨fun e he => hl e (List.mem_append_left _ he), by decide +kernel⟩ ⟨fun e he => hl e (List.mem_append_right _ he),
      by decide +kernel⟩
    (ExactOn.measuring (rounding_exactOn ex (round := id) hl subset_rfl fun _ _ => rfl) _ _) ex, by decide +kernel⟩

end Orient.Props
