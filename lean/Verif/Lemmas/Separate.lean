import Mathlib.Analysis.Convex.Radon
import Mathlib.Data.Finset.Sum
import Mathlib.LinearAlgebra.Dimension.Constructions
import Verif.Lemmas.Convex

/-! Convex regions without common points are separated by an edge, by Helly's theorem. -/

set_option linter.unusedSectionVars false

namespace Orient

variable {K : Type} [Field K] [LinearOrder K] [IsStrictOrderedRing K]

open Module in
/-- Two finite families of convex sets of the plane have a common point if each set of one of them has a common point
with all sets of the other. -/
theorem helly_two {E ι κ : Type} [AddCommGroup E] [Module K E] [FiniteDimensional K E] (hd : finrank K E = 2)
    {F : ι → Set E} {G : κ → Set E} {A : Finset ι} {B : Finset κ} (cF : ∀ i ∈ A, Convex K (F i))
    (cG : ∀ j ∈ B, Convex K (G j)) (nA : ∃ x, ∀ i ∈ A, x ∈ F i) (nB : ∃ x, ∀ j ∈ B, x ∈ G j)
    (hA : ∀ j ∈ B, ∃ x, (∀ i ∈ A, x ∈ F i) ∧ x ∈ G j) (hB : ∀ i ∈ A, ∃ x, (∀ j ∈ B, x ∈ G j) ∧ x ∈ F i) :
    ∃ x, (∀ i ∈ A, x ∈ F i) ∧ ∀ j ∈ B, x ∈ G j := by
  classical
  have key := Convex.helly_theorem' (𝕜 := K) (F := Sum.elim F G) (s := A.disjSum B) (fun i hi => ?_) fun I hI hc => ?_
  · obtain ⟨x, hx⟩ := key
    simp only [Set.mem_iInter, Finset.mem_disjSum] at hx
    exact ⟨x, fun i hi => hx (.inl i) (.inl ⟨i, hi, rfl⟩), fun j hj => hx (.inr j) (.inr ⟨j, hj, rfl⟩)⟩
  · rcases i with i | i
    · exact cF i (by simpa using hi)
    · exact cG i (by simpa using hi)
  · rw [hd, ← Finset.card_toLeft_add_card_toRight] at hc
    suffices h : ∃ x, (∀ i ∈ I.toLeft, x ∈ F i) ∧ ∀ j ∈ I.toRight, x ∈ G j by
      obtain ⟨x, h1, h2⟩ := h
      refine ⟨x, ?_⟩
      simp only [Set.mem_iInter]
      rintro (i | i) hi
      · exact h1 i (by simpa using hi)
      · exact h2 i (by simpa using hi)
    have iA : ∀ i ∈ I.toLeft, i ∈ A := fun i hi => by simpa using hI (Finset.mem_toLeft.mp hi)
    have iB : ∀ i ∈ I.toRight, i ∈ B := fun i hi => by simpa using hI (Finset.mem_toRight.mp hi)
    rcases le_or_gt I.toRight.card 1 with h1 | h1
    · rcases I.toRight.eq_empty_or_nonempty with h0 | ⟨j, hj⟩
      · obtain ⟨x, hx⟩ := nA
        exact ⟨x, fun i hi => hx i (iA i hi), by simp [h0]⟩
      · obtain ⟨x, hx, hx'⟩ := hA j (iB j hj)
        refine ⟨x, fun i hi => hx i (iA i hi), fun k hk => ?_⟩
        rwa [Finset.card_le_one.mp h1 k hk j hj]
    · have h1 : I.toLeft.card ≤ 1 := by omega
      rcases I.toLeft.eq_empty_or_nonempty with h0 | ⟨j, hj⟩
      · obtain ⟨x, hx⟩ := nB
        exact ⟨x, by simp [h0], fun i hi => hx i (iB i hi)⟩
      · obtain ⟨x, hx, hx'⟩ := hB j (iA j hj)
        refine ⟨x, fun k hk => ?_, fun i hi => hx i (iB i hi)⟩
        rwa [Finset.card_le_one.mp h1 k hk j hj]

/-- The same for points and functions which are linear along segments. -/
theorem separate {P : K → Prop} (hP : ∀ x y t, P x → P y → 0 ≤ t → t ≤ 1 → P ((1 - t) * x + t * y)) {σ τ : K}
    {A B : List (Segment K)} (nA : ∃ x, ∀ e ∈ A, P (sideOf σ e x)) (nB : ∃ x, ∀ e ∈ B, P (sideOf τ e x))
    (no : ∀ x, (∀ e ∈ A, P (sideOf σ e x)) → (∀ e ∈ B, P (sideOf τ e x)) → False) :
    (∃ e ∈ B, ∀ x, (∀ e ∈ A, P (sideOf σ e x)) → ¬P (sideOf τ e x)) ∨
    (∃ e ∈ A, ∀ x, (∀ e ∈ B, P (sideOf τ e x)) → ¬P (sideOf σ e x)) := by
  classical
  by_contra hn
  push Not at hn
  obtain ⟨h1, h2⟩ := hn
  have cv : ∀ (ρ : K) (e : Segment K), Convex K {x : K × K | P (sideOf ρ e ⟨x.1, x.2⟩)} := by
    intro ρ e x hx y hy a b ha hb hab
    have := hP _ _ b hx hy hb (by linarith)
    rw [Set.mem_ofPred_eq]
    convert this using 1
    rw [← sideOf_lerp, show a = 1 - b by linarith]
    congr 1
    simp only [lerp, Prod.fst_add, Prod.snd_add, Prod.smul_fst, Prod.smul_snd, smul_eq_mul, Point.mk.injEq]
    constructor <;> ring
  have mk : ∀ {Q : Point K → Prop}, (∃ p, Q p) → ∃ x : K × K, Q ⟨x.1, x.2⟩ := fun ⟨p, hp⟩ => ⟨(p.x, p.y), hp⟩
  obtain ⟨x, k1, k2⟩ := helly_two (K := K) (E := K × K) (by simp) (A := A.toFinset) (B := B.toFinset)
    (F := fun e => {x : K × K | P (sideOf σ e ⟨x.1, x.2⟩)}) (G := fun e => {x : K × K | P (sideOf τ e ⟨x.1, x.2⟩)})
    (fun e _ => cv σ e) (fun e _ => cv τ e)
    (by simpa using mk nA) (by simpa using mk nB)
    (fun e he => by simpa using mk (h1 e (by simpa using he))) (fun e he => by simpa using mk (h2 e (by simpa using he)))
  exact no ⟨x.1, x.2⟩ (by simpa using k1) (by simpa using k2)

open Module in
/-- A part of a line and an intersection of half-planes which meets the line have a common point or are separated by
one of the half-planes. -/
theorem separate_segment {P : K → Prop} (hP : ∀ x y t, P x → P y → 0 ≤ t → t ≤ 1 → P ((1 - t) * x + t * y)) {σ : K}
    {A : List (Segment K)} {s : Segment K} {u : K} (hu : ∀ e ∈ A, P (sideOf σ e (lerp s.start s.finish u)))
    (no : ∀ x ∈ s.pts, ¬∀ e ∈ A, P (sideOf σ e x)) : ∃ e ∈ A, ∀ x ∈ s.pts, ¬P (sideOf σ e x) := by
  classical
  by_contra hn
  push Not at hn
  have key := Convex.helly_theorem' (𝕜 := K) (E := K) (ι := Option (Segment K)) (F := fun i => match i with
      | none => {t : K | 0 ≤ t ∧ t ≤ 1}
      | some e => {t : K | P (sideOf σ e (lerp s.start s.finish t))})
    (s := insert none (A.toFinset.image some)) (fun i hi => ?_) fun I hI hc => ?_
  · obtain ⟨t, ht⟩ := key
    simp only [Set.mem_iInter] at ht
    have h0 := ht none (by simp)
    exact no _ ⟨t, h0.1, h0.2, rfl⟩ fun e he => ht (some e) (by simpa using he)
  · rcases i with - | e
    · intro x hx y hy a b ha hb hab
      have := mul_nonneg ha hx.1
      have := mul_nonneg hb hy.1
      have := mul_nonneg ha (sub_nonneg.mpr hx.2)
      have := mul_nonneg hb (sub_nonneg.mpr hy.2)
      simp only [smul_eq_mul, Set.mem_ofPred_eq]
      constructor <;> nlinarith
    · intro x hx y hy a b ha hb hab
      simp only [Set.mem_ofPred_eq, sideOf_lerp, smul_eq_mul] at hx hy ⊢
      have e : (1 - (a * x + b * y)) * sideOf σ e s.start + (a * x + b * y) * sideOf σ e s.finish =
          a * ((1 - x) * sideOf σ e s.start + x * sideOf σ e s.finish) +
          b * ((1 - y) * sideOf σ e s.start + y * sideOf σ e s.finish) := by
        rw [show a = 1 - b by linarith]
        ring
      rw [e, show a = 1 - b by linarith]
      exact hP _ _ b hx hy hb (by linarith)
  · rw [finrank_self] at hc
    suffices h : ∃ t : K, (none ∈ I → 0 ≤ t ∧ t ≤ 1) ∧ ∀ e, some e ∈ I → P (sideOf σ e (lerp s.start s.finish t)) by
      obtain ⟨t, h1, h2⟩ := h
      refine ⟨t, ?_⟩
      simp only [Set.mem_iInter]
      rintro (- | e) hi
      · exact h1 hi
      · exact h2 e hi
    have iA : ∀ e, some e ∈ I → e ∈ A := fun e he => by simpa using hI he
    by_cases h0 : none ∈ I
    · by_cases h1 : ∃ e, some e ∈ I
      · obtain ⟨e, he⟩ := h1
        obtain ⟨x, ⟨t, t0, t1, rfl⟩, hx⟩ := hn e (iA e he)
        refine ⟨t, fun _ => ⟨t0, t1⟩, fun f hf => ?_⟩
        by_cases hfe : f = e
        · rwa [hfe]
        · exfalso
          have : ({none, some e, some f} : Finset (Option (Segment K))) ⊆ I := by
            intro i hi
            simp only [Finset.mem_insert, Finset.mem_singleton] at hi
            rcases hi with rfl | rfl | rfl <;> assumption
          have := Finset.card_le_card this
          rw [Finset.card_insert_of_notMem (by simp), Finset.card_pair (by simpa using Ne.symm hfe)] at this
          omega
      · exact ⟨0, fun _ => ⟨le_rfl, zero_le_one⟩, fun e he => absurd ⟨e, he⟩ h1⟩
    · exact ⟨u, fun h => absurd h h0, fun e he => hu e (iA e he)⟩

end Orient
