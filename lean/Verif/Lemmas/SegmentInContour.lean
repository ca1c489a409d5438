import Verif.Model.Contour
import Verif.Spec.Context
import Verif.Lemmas.Crossed
import Verif.Lemmas.SimpleEdges

/-! The loop of `contour.relateSegment`. -/

set_option linter.unusedSectionVars false

namespace Orient

variable {K : Type} [Field K] [LinearOrder K] [IsStrictOrderedRing K]

theorem Context.Exact.collinear {context : Context K} (hc : context.Exact) (v a b : Point K) :
    context.angleOrientation v a b = .collinear ↔ cross v a b = 0 := by
  have h1 := hc.counterclockwise v a b
  have h2 := hc.clockwise v a b
  cases h : context.angleOrientation v a b <;> rw [h] at h1 h2 <;>
    simp only [reduceCtorEq, false_iff, true_iff, not_lt] at h1 h2 ⊢
  · exact h2.ne
  · exact le_antisymm h1 h2
  · exact h1.ne'

theorem Context.Exact.angle_eq_iff {context : Context K} (hc : context.Exact)
    (v a b v' a' b' : Point K) :
    context.angleOrientation v a b = context.angleOrientation v' a' b' ↔
      ((0 < cross v a b ↔ 0 < cross v' a' b') ∧ (cross v a b < 0 ↔ cross v' a' b' < 0)) := by
  rw [← hc.counterclockwise, ← hc.counterclockwise, ← hc.clockwise, ← hc.clockwise]
  cases context.angleOrientation v a b <;> cases context.angleOrientation v' a' b' <;> simp

namespace contour

open Segment

theorem inner_of_touch {s : Segment K} (hs : s.Nondegenerate) {v n : Point K} (hvn : v ≠ n)
    (h : SegmentsRel s ⟨v, n⟩ .touch) (hv : cross s.start s.finish v = 0)
    (h1 : s.start ≠ v) (h2 : s.start ≠ n) (h3 : s.finish ≠ v) (h4 : s.finish ≠ n) : s.Inner v := by
  have hf : Nondegenerate (⟨v, n⟩ : Segment K) := hvn
  obtain ⟨q, hq, hend⟩ := h
  have hqm : q ∈ s.pts ∩ (⟨v, n⟩ : Segment K).pts := by rw [hq]; rfl
  have hnt : ¬ (s.pts ∩ (⟨v, n⟩ : Segment K).pts).Nontrivial := by
    rw [hq]; exact Set.not_nontrivial_singleton
  by_cases hn : cross s.start s.finish n = 0
  · exfalso
    have hcol : s.Collinear ⟨v, n⟩ := ⟨hv, hn⟩
    by_cases he : s.IsEndpoint q
    · by_cases he' : (⟨v, n⟩ : Segment K).IsEndpoint q
      · rcases he with rfl | rfl <;> rcases he' with he' | he' <;> simp only at he' <;> contradiction
      · apply hnt
        rw [Set.inter_comm]
        exact (hcol.symm hs hf).nontrivial_of_inner hf hs ⟨hqm.2, he'⟩ hqm.1
    · exact hnt (hcol.nontrivial_of_inner hs hf ⟨hqm.1, he⟩ hqm.2)
  · have hqv : q = v := by
      obtain ⟨t, t0, t1, rfl⟩ := hqm.2
      have h0 := cross_eq_zero hqm.1
      simp only at h0 ⊢
      rw [cross_lerp, hv, zero_add, sub_zero] at h0
      rcases mul_eq_zero.mp h0 with h0 | h0
      · rw [h0, lerp_zero]
      · exact absurd h0 hn
    rw [hqv] at hqm
    refine ⟨hqm.1, ?_⟩
    rintro (rfl | rfl)
    · exact h1 rfl
    · exact h3 rfl

theorem cross_at_inner {s : Segment K} {v : Point K} (h : s.Inner v) :
    ∃ t : K, 0 < t ∧ ∀ x, cross v s.start x = - (t * cross s.start s.finish x) := by
  obtain ⟨⟨t, t0, t1, rfl⟩, hn⟩ := h
  refine ⟨t, lt_of_le_of_ne t0 ?_, ?_⟩
  · rintro rfl
    rw [lerp_zero] at hn
    exact hn (.inl rfl)
  · intro x
    simp only [cross, lerp]
    ring

theorem mul_lo_hi (s : Segment K) (a b : Point K) :
    cross s.lo s.hi a * cross s.lo s.hi b
      = cross s.start s.finish a * cross s.start s.finish b := by
  rcases s.cross_lo_hi with e | e <;> rw [e, e]
  rw [neg_mul_neg]

/-- The check for a vertex between two touched edges. -/
theorem crossesAtVertex_iff {context : Context K} (hc : context.Exact) {s : Segment K}
    (hs : s.Nondegenerate) {p v n : Point K} (hpv : p ≠ v) (hvn : v ≠ n)
    (hp : SegmentsRel s ⟨p, v⟩ .touch) (hn : SegmentsRel s ⟨v, n⟩ .touch) :
    crossesAtVertex context s p v n = true ↔
      s.Inner v ∧ cross s.start s.finish p * cross s.start s.finish n < 0 := by
  have subp : (s.pts ∩ (⟨v, p⟩ : Segment K).pts).Subsingleton := by
    obtain ⟨q, hq, -⟩ := hp
    have : (⟨v, p⟩ : Segment K).pts = (⟨p, v⟩ : Segment K).pts := pts_reverse ⟨p, v⟩
    rw [this, hq]
    exact Set.subsingleton_singleton
  have subn : (s.pts ∩ (⟨v, n⟩ : Segment K).pts).Subsingleton := by
    obtain ⟨q, hq, -⟩ := hn
    rw [hq]
    exact Set.subsingleton_singleton
  have divides : s.Inner v → (pointVertexLineDividesAngle s.start p v n context = true ↔
      cross s.start s.finish p * cross s.start s.finish n < 0) := by
    intro hv
    have np : cross s.start s.finish p ≠ 0 := fun e =>
      (goes_of_touch hs hpv.symm hv subp).1 ((s.cross_lo_hi_eq_zero p).mpr e)
    have nn : cross s.start s.finish n ≠ 0 := fun e =>
      (goes_of_touch hs hvn hv subn).1 ((s.cross_lo_hi_eq_zero n).mpr e)
    obtain ⟨t, t0, ht⟩ := cross_at_inner hv
    unfold pointVertexLineDividesAngle
    rw [decide_eq_true_eq, hc.angle_eq_iff, cross_swap v s.start p, ht, ht, neg_neg]
    have e1 : ∀ x : K, 0 < t * x ↔ 0 < x := fun x => mul_pos_iff_of_pos_left t0
    have e2 : ∀ x : K, t * x < 0 ↔ x < 0 := fun x => by
      rw [← neg_pos, ← mul_neg, e1, neg_pos]
    rw [neg_pos, neg_lt_zero, e1, e1, e2, e2, mul_neg_iff]
    rcases lt_or_gt_of_ne np with a | a <;> rcases lt_or_gt_of_ne nn with b | b <;>
      simp [a, b, a.not_gt, b.not_gt]
  unfold crossesAtVertex
  rw [Bool.and_eq_true, Bool.and_eq_true, Bool.and_eq_true, decide_eq_true_eq, hc.collinear]
  simp only [Orient.multisegment.inPair, Bool.not_eq_true', Bool.or_eq_false_iff,
    decide_eq_false_iff_not]
  constructor
  · rintro ⟨⟨⟨⟨h1, h2⟩, h3, h4⟩, h5⟩, h6⟩
    have hv := inner_of_touch hs hvn hn h5 h1 h2 h3 h4
    exact ⟨hv, (divides hv).mp h6⟩
  · rintro ⟨hv, hneg⟩
    have hn0 : cross s.start s.finish n ≠ 0 := by
      intro e; rw [e, mul_zero] at hneg; exact lt_irrefl _ hneg
    refine ⟨⟨⟨⟨?_, ?_⟩, ?_, ?_⟩, cross_eq_zero hv.1⟩, (divides hv).mpr hneg⟩
    · intro e; exact hv.2 (.inl e.symm)
    · intro e; apply hn0; rw [← e]; exact cross_self_right _ _
    · intro e; exact hv.2 (.inr e.symm)
    · intro e; apply hn0; rw [← e]; exact cross_same _ _

section Loop

variable (context : Context K) (s : Segment K) (es : List (Segment K))

/-- The `i`-th edge stands in the relation `r` with the segment. -/
def RelAt (r : Relation) (i : Nat) : Prop :=
  ∃ e, es[i]? = some e ∧ context.segmentsRelation s e = r

/-- The check at the vertex between the edges `i` and `j` succeeds. -/
def VertexAt (i j : Nat) : Prop :=
  ∃ e f, es[i]? = some e ∧ es[j]? = some f ∧
    crossesAtVertex context s e.start f.start f.finish = true

/-- What the loop knows after the first `k` edges. -/
structure Inv (k : Nat) (st : LoopState K) : Prop where
  sub : ∀ i < k, ∀ r, RelAt context s es r i → r = .disjoint ∨ r = .touch ∨ r = .cross
  touch : st.hasNoTouch = true ↔ ∀ i < k, ¬ RelAt context s es .touch i
  noLast : st.last = none → st.hasNoTouch = true
  last : ∀ j x, st.last = some (j, x) → st.hasNoTouch = false ∧ ∃ i : Nat, j = i ∧ i < k ∧
    (∃ e, es[i]? = some e ∧ e.start = x) ∧ RelAt context s es .touch i ∧
    ∀ i', i < i' → i' < k → ¬ RelAt context s es .touch i'
  cross : st.hasNoCross = false ↔ (∃ i < k, RelAt context s es .cross i) ∨
    ∃ i, i + 1 < k ∧ RelAt context s es .touch i ∧ RelAt context s es .touch (i + 1) ∧
      VertexAt context s es i (i + 1)

variable {context s es}

theorem RelAt.unique {r r' : Relation} {i : Nat} (h : RelAt context s es r i)
    (h' : RelAt context s es r' i) : r = r' := by
  obtain ⟨e, he, rfl⟩ := h
  obtain ⟨e', he', rfl⟩ := h'
  rw [he] at he'
  cases he'
  rfl

theorem Inv.init : Inv context s es 0 { hasNoTouch := true, hasNoCross := true, last := none } where
  sub := by intro i hi; omega
  touch := by simp
  noLast := by simp
  last := by simp
  cross := by simp

/-- The last touched edge is the one before the current one. -/
theorem Inv.touched {k : Nat} {st : LoopState K} (h : Inv context s es k st) (hk : 0 < k) :
    (∃ x, st.last = some ((k : Int) - 1, x)) ↔ RelAt context s es .touch (k - 1) := by
  constructor
  · rintro ⟨x, hx⟩
    obtain ⟨-, i, h1, h2, -, h3, -⟩ := h.last _ _ hx
    have : i = k - 1 := by omega
    rw [← this]; exact h3
  · intro ht
    cases hl : st.last with
    | none =>
      exact absurd ht (h.touch.mp (h.noLast hl) _ (by omega))
    | some jx =>
      obtain ⟨j, x⟩ := jx
      obtain ⟨-, i, h1, h2, -, h3, h4⟩ := h.last _ _ hl
      have : i = k - 1 := by
        by_contra hne
        exact h4 (k - 1) (by omega) (by omega) ht
      refine ⟨x, ?_⟩
      rw [h1, this]
      congr 2
      omega

theorem Inv.start {k : Nat} {st : LoopState K} (h : Inv context s es k st) {j : Int} {x : Point K}
    (hl : st.last = some (j, x)) (hj : (k : Int) - j = 1) :
    ∃ e, es[k - 1]? = some e ∧ e.start = x := by
  obtain ⟨-, i, h1, h2, h3, -, -⟩ := h.last _ _ hl
  have : i = k - 1 := by omega
  rw [← this]; exact h3

theorem Inv.step {k : Nat} {st : LoopState K} (h : Inv context s es k st) {e : Segment K}
    (he : es[k]? = some e) :
    (loopStep context s k e st = .inl .component ∧
      (RelAt context s es .component k ∨ RelAt context s es .equal k)) ∨
    (loopStep context s k e st = .inl .overlap ∧
      (RelAt context s es .overlap k ∨ RelAt context s es .composite k)) ∨
    (∃ r, RelAt context s es r k ∧ (r = .cover ∨ r = .encloses ∨ r = .enclosed ∨ r = .within)) ∨
    ∃ st', loopStep context s k e st = .inr st' ∧ Inv context s es (k + 1) st' := by
  have hrel : RelAt context s es (context.segmentsRelation s e) k := ⟨e, he, rfl⟩
  have upto : ∀ {P : Nat → Prop}, (∀ i < k + 1, P i) ↔ (∀ i < k, P i) ∧ P k := by
    intro P
    constructor
    · intro h; exact ⟨fun i hi => h i (by omega), h k (by omega)⟩
    · rintro ⟨h1, h2⟩ i hi
      rcases Nat.lt_succ_iff_lt_or_eq.mp hi with hi | rfl
      · exact h1 i hi
      · exact h2
  have ex : ∀ {P : Nat → Prop}, (∃ i < k + 1, P i) ↔ (∃ i < k, P i) ∨ P k := by
    intro P
    constructor
    · rintro ⟨i, hi, hP⟩
      rcases Nat.lt_succ_iff_lt_or_eq.mp hi with hi | rfl
      · exact .inl ⟨i, hi, hP⟩
      · exact .inr hP
    · rintro (⟨i, hi, hP⟩ | hP)
      · exact ⟨i, by omega, hP⟩
      · exact ⟨k, by omega, hP⟩
  have ex' : ∀ {P : Nat → Prop}, (∃ i, i + 1 < k + 1 ∧ P i) ↔
      (∃ i, i + 1 < k ∧ P i) ∨ (0 < k ∧ P (k - 1)) := by
    intro P
    constructor
    · rintro ⟨i, hi, hP⟩
      by_cases h' : i + 1 < k
      · exact .inl ⟨i, h', hP⟩
      · refine .inr ⟨by omega, ?_⟩
        have : i = k - 1 := by omega
        rw [← this]; exact hP
    · rintro (⟨i, hi, hP⟩ | ⟨hk, hP⟩)
      · exact ⟨i, by omega, hP⟩
      · exact ⟨k - 1, by omega, hP⟩
  have notr : ∀ {r}, RelAt context s es r k → r = context.segmentsRelation s e :=
    fun h => h.unique hrel
  have sub' : ∀ r, (r = .disjoint ∨ r = .touch ∨ r = .cross) → context.segmentsRelation s e = r →
      ∀ i < k + 1, ∀ r, RelAt context s es r i → r = .disjoint ∨ r = .touch ∨ r = .cross := by
    intro r hr e' i hi r' hr'
    rcases Nat.lt_succ_iff_lt_or_eq.mp hi with hi | rfl
    · exact h.sub i hi r' hr'
    · rw [notr hr', e']; exact hr
  unfold loopStep
  simp only [show Orient.segment.relateSegment e s context = context.segmentsRelation s e from rfl]
  cases hr : context.segmentsRelation s e <;> rw [hr] at hrel notr sub' <;>
    simp only [reduceCtorEq, or_false, or_true, or_self, if_true, if_false, and_false, and_true]
  case component => exact .inl ⟨trivial, .inl hrel⟩
  case equal => exact .inl ⟨trivial, .inr hrel⟩
  case overlap => exact .inr (.inl ⟨trivial, .inl hrel⟩)
  case composite => exact .inr (.inl ⟨trivial, .inr hrel⟩)
  case cover => exact .inr (.inr (.inl ⟨_, hrel, by simp⟩))
  case encloses => exact .inr (.inr (.inl ⟨_, hrel, by simp⟩))
  case enclosed => exact .inr (.inr (.inl ⟨_, hrel, by simp⟩))
  case within => exact .inr (.inr (.inl ⟨_, hrel, by simp⟩))
  case disjoint =>
    have nt : ¬ RelAt context s es .touch k := fun h => by cases notr h
    have nx : ¬ RelAt context s es .cross k := fun h => by cases notr h
    refine .inr (.inr (.inr ⟨st, rfl, sub' _ (by simp) rfl, ?_, h.noLast, ?_, ?_⟩))
    · rw [upto, h.touch]; simp [nt]
    · intro j x hl
      obtain ⟨h0, i, h1, h2, h3, h4, h5⟩ := h.last j x hl
      refine ⟨h0, i, h1, by omega, h3, h4, fun i' a b => ?_⟩
      rcases Nat.lt_succ_iff_lt_or_eq.mp b with b | rfl
      · exact h5 i' a b
      · exact nt
    · rw [h.cross, ex, ex']
      constructor
      · rintro (h | h)
        · exact .inl (.inl h)
        · exact .inr (.inl h)
      · rintro ((h | h) | (h | ⟨h0, h1, h2, -⟩))
        · exact .inl h
        · exact absurd h nx
        · exact .inr h
        · rw [Nat.sub_add_cancel h0] at h2
          exact absurd h2 nt
  case cross =>
    have nt : ¬ RelAt context s es .touch k := fun h => by cases notr h
    have lastk : ∀ j x, st.last = some (j, x) → st.hasNoTouch = false ∧ ∃ i : Nat, j = i ∧
        i < k + 1 ∧ (∃ e, es[i]? = some e ∧ e.start = x) ∧ RelAt context s es .touch i ∧
        ∀ i', i < i' → i' < k + 1 → ¬ RelAt context s es .touch i' := by
      intro j x hl
      obtain ⟨h0, i, h1, h2, h3, h4, h5⟩ := h.last j x hl
      refine ⟨h0, i, h1, by omega, h3, h4, fun i' a b => ?_⟩
      rcases Nat.lt_succ_iff_lt_or_eq.mp b with b | rfl
      · exact h5 i' a b
      · exact nt
    have tch : st.hasNoTouch = true ↔ ∀ i < k + 1, ¬ RelAt context s es .touch i := by
      rw [upto, h.touch]; simp [nt]
    by_cases hx : st.hasNoCross = true
    · rw [if_pos hx]
      refine .inr (.inr (.inr ⟨_, rfl, sub' _ (by simp) rfl, tch, h.noLast, lastk, ?_⟩))
      simp only [true_iff]
      exact .inl ⟨k, by omega, hrel⟩
    · rw [if_neg hx]
      refine .inr (.inr (.inr ⟨_, rfl, sub' _ (by simp) rfl, tch, h.noLast, lastk, ?_⟩))
      simp only [Bool.not_eq_true] at hx
      simp only [hx, true_iff]
      exact .inl ⟨k, by omega, hrel⟩
  case touch =>
    have nx : ¬ RelAt context s es .cross k := fun h => by cases notr h
    refine .inr (.inr (.inr ⟨_, rfl, sub' _ (by simp) rfl, ?_, ?_, ?_, ?_⟩))
    · -- hasNoTouch
      refine iff_of_false ?_ (fun hall => hall k (by omega) hrel)
      rw [Bool.not_eq_true]
      simp only
      split
      · rfl
      · rename_i hn
        simp only [Bool.not_eq_true] at hn
        split
        · exact hn
        · split <;> exact hn
    · intro hcon; simp at hcon
    · intro j x hjx
      simp only [Option.some.injEq, Prod.mk.injEq] at hjx
      refine ⟨?_, k, hjx.1.symm, by omega, ⟨e, he, hjx.2⟩, hrel, by omega⟩
      simp only
      split
      · rfl
      · rename_i hn
        simp only [Bool.not_eq_true] at hn
        split
        · exact hn
        · split <;> exact hn
    · rw [ex, ex']
      have base := h.cross
      have goalEq : ((0 < k ∧ RelAt context s es .touch (k - 1) ∧
          RelAt context s es .touch (k - 1 + 1) ∧ VertexAt context s es (k - 1) (k - 1 + 1)) ↔
          ∃ j x, st.last = some (j, x) ∧ (k : Int) - j = 1 ∧
            crossesAtVertex context s x e.start e.finish = true) := by
        constructor
        · rintro ⟨hk, h1, -, e1, f1, he1, hf1, hv⟩
          obtain ⟨x, hx⟩ := (h.touched hk).mpr h1
          refine ⟨_, x, hx, by omega, ?_⟩
          obtain ⟨e2, he2, rfl⟩ := h.start hx (by omega)
          rw [he1] at he2
          cases he2
          rw [Nat.sub_add_cancel hk, he] at hf1
          cases hf1
          exact hv
        · rintro ⟨j, x, hx, hj, hv⟩
          obtain ⟨-, i, h1, h2, -, h3, -⟩ := h.last _ _ hx
          have hk : 0 < k := by omega
          have hi : i = k - 1 := by omega
          obtain ⟨e2, he2, rfl⟩ := h.start hx hj
          refine ⟨hk, by rw [← hi]; exact h3, by rw [Nat.sub_add_cancel hk]; exact hrel, e2, e, he2,
            by rw [Nat.sub_add_cancel hk]; exact he, hv⟩
      rw [goalEq]
      simp only [nx, or_false]
      by_cases hT : st.hasNoTouch = true
      · have hl : st.last = none := by
          cases hl : st.last with
          | none => rfl
          | some jx => rw [(h.last jx.1 jx.2 hl).1] at hT; exact absurd hT (by simp)
        simp only [hT, if_true, hl]
        rw [base]
        simp
      · simp only [hT, Bool.false_eq_true, if_false]
        cases hl : st.last with
        | none => simp only; rw [base]; simp
        | some jx =>
          obtain ⟨j, x⟩ := jx
          simp only [Option.some.injEq, Prod.mk.injEq]
          by_cases hv : (k : Int) - j = 1 ∧ crossesAtVertex context s x e.start e.finish = true
          · by_cases hx : st.hasNoCross = true
            · simp only [hx, hv.1, hv.2, decide_true, Bool.and_self, if_true, true_iff]
              exact .inr (.inr ⟨j, x, ⟨rfl, rfl⟩, hv.1, hv.2⟩)
            · simp only [Bool.not_eq_true] at hx
              simp only [hx, Bool.false_and, Bool.false_eq_true, if_false, true_iff]
              exact .inr (.inr ⟨j, x, ⟨rfl, rfl⟩, hv.1, hv.2⟩)
          · have hno : (st.hasNoCross && decide ((k : Int) - j = 1) &&
                crossesAtVertex context s x e.start e.finish) = false := by
              rw [Bool.eq_false_iff]
              intro hh
              rw [Bool.and_eq_true, Bool.and_eq_true, decide_eq_true_eq] at hh
              exact hv ⟨hh.1.2, hh.2⟩
            simp only [hno, Bool.false_eq_true, if_false]
            rw [base]
            constructor
            · rintro (h | h)
              · exact .inl h
              · exact .inr (.inl h)
            · rintro (h | h | ⟨j', x', ⟨rfl, rfl⟩, h⟩)
              · exact .inl h
              · exact .inr h
              · exact absurd h hv

theorem loop_spec : ∀ (rest : List (Segment K)) (k : Nat) (st : LoopState K),
    es.drop k = rest → Inv context s es k st →
    (∀ i r, RelAt context s es r i → r ≠ .cover ∧ r ≠ .encloses ∧ r ≠ .enclosed ∧ r ≠ .within) →
    (loop context s k rest st = .inl .component ∧
      ∃ i, RelAt context s es .component i ∨ RelAt context s es .equal i) ∨
    (loop context s k rest st = .inl .overlap ∧
      ∃ i, RelAt context s es .overlap i ∨ RelAt context s es .composite i) ∨
    ∃ st', loop context s k rest st = .inr st' ∧ Inv context s es (k + rest.length) st' := by
  intro rest
  induction rest with
  | nil => intro k st _ h _; exact .inr (.inr ⟨st, rfl, h⟩)
  | cons e rest ih =>
    intro k st hd h hr
    have he : es[k]? = some e := by
      have := congrArg (·[0]?) hd
      simpa using this
    have hd' : es.drop (k + 1) = rest := by
      rw [← List.drop_drop, hd]; rfl
    unfold loop
    rcases h.step he with ⟨e1, h1⟩ | ⟨e1, h1⟩ | ⟨r, h1, h2⟩ | ⟨st', e1, h1⟩
    · rw [e1]; exact .inl ⟨rfl, k, h1⟩
    · rw [e1]; exact .inr (.inl ⟨rfl, k, h1⟩)
    · exfalso
      obtain ⟨a, b, c, d⟩ := hr k r h1
      rcases h2 with h2 | h2 | h2 | h2 <;> contradiction
    · rw [e1]
      have := ih (k + 1) st' hd' h1 hr
      simp only [Nat.cast_add, Nat.cast_one] at this
      simp only [List.length_cons]
      rw [show k + (rest.length + 1) = k + 1 + rest.length by omega]
      exact this

end Loop

end contour

end Orient
