import Verif.Lemmas.Sweep.Invariant

/-! The pieces at any moment are parts of the registered segments. -/

set_option linter.unusedSectionVars false

namespace Orient.State

variable {K : Type} [Field K] [LinearOrder K] [IsStrictOrderedRing K]

open Segment

/-- `o` maps each piece of `s'` to the segment of `s` it is cut from. -/
structure Refines (s s' : State K) (o : Nat → Nat) : Prop where
  lt : ∀ i < s'.nextLeft, o i < s.nextLeft
  fromTest : ∀ i < s'.nextLeft, (s'.lefts i).fromTest = (s.lefts (o i)).fromTest
  interiorToLeft : ∀ i < s'.nextLeft,
    (s'.lefts i).interiorToLeft = (s.lefts (o i)).interiorToLeft
  originalStart : ∀ i < s'.nextLeft, (s'.lefts i).originalStart = (s.lefts (o i)).originalStart
  originalEnd : ∀ i < s'.nextLeft, (s'.rights (s'.lefts i).right).originalStart
    = (s.rights (s.lefts (o i)).right).originalStart
  subset : ∀ i < s'.nextLeft, (s'.seg i).pts ⊆ (s.seg (o i)).pts
  cover : ∀ j < s.nextLeft, ∀ x ∈ (s.seg j).pts, ∃ i < s'.nextLeft, o i = j ∧ x ∈ (s'.seg i).pts
  apart : ∀ i < s'.nextLeft, ∀ j < s'.nextLeft, i ≠ j → o i = o j →
    s'.leftEnd i ≤ (s'.lefts j).start ∨ s'.leftEnd j ≤ (s'.lefts i).start

theorem Refines.refl (s : State K) : Refines s s id :=
  ⟨fun _ h => h, fun _ _ => rfl, fun _ _ => rfl, fun _ _ => rfl, fun _ _ => rfl,
    fun _ _ => subset_rfl, fun j hj _ hx => ⟨j, hj, rfl, hx⟩,
    fun _ _ _ _ hij e => absurd e hij⟩

theorem Refines.shape {s t u : State K} {o : Nat → Nat} (h : Refines s t o) (hs : SameShape t u) :
    Refines s u o := by
  refine ⟨?_, ?_, ?_, ?_, ?_, ?_, ?_, ?_⟩
  · rw [hs.nextLeft]; exact h.lt
  · rw [hs.nextLeft]; intro i hi; rw [hs.fromTest]; exact h.fromTest i hi
  · rw [hs.nextLeft]; intro i hi; rw [hs.interiorToLeft]; exact h.interiorToLeft i hi
  · rw [hs.nextLeft]; intro i hi; rw [hs.originalStart]; exact h.originalStart i hi
  · rw [hs.nextLeft]; intro i hi; rw [hs.rights, hs.right]; exact h.originalEnd i hi
  · rw [hs.nextLeft]; intro i hi; rw [hs.seg]; exact h.subset i hi
  · rw [hs.nextLeft]; intro j hj x hx
    obtain ⟨i, h1, h2, h3⟩ := h.cover j hj x hx
    exact ⟨i, h1, h2, by rw [hs.seg]; exact h3⟩
  · rw [hs.nextLeft]; intro i hi j hj
    rw [hs.leftEnd, hs.leftEnd, hs.start, hs.start]
    exact h.apart i hi j hj

theorem Refines.pop {s t : State K} {o : Nat → Nat} (h : Refines s t o) (q : List Ev) :
    Refines s { t with queue := q } o :=
  ⟨h.lt, h.fromTest, h.interiorToLeft, h.originalStart, h.originalEnd, h.subset, h.cover, h.apart⟩

/-- The two parts of a divided piece. -/
theorem divide_parts {s : State K} (h : s.WF) {i : Nat} (hi : i < s.nextLeft) {p : Point K}
    (hp : (s.seg i).Inner p) :
    ((s.divide i p).seg i).pts ⊆ (s.seg i).pts ∧
    ((s.divide i p).seg s.nextLeft).pts ⊆ (s.seg i).pts ∧
    ∀ x ∈ (s.seg i).pts, x ∈ ((s.divide i p).seg i).pts ∨
      x ∈ ((s.divide i p).seg s.nextLeft).pts := by
  obtain ⟨h0, h1, h2⟩ := (h.inner_iff hi).mp hp
  rw [divide_seg_self h hi, divide_seg_new h hi]
  have hs : (s.lefts i).start ∈ (s.seg i).pts := start_mem (s.seg i)
  have he : s.leftEnd i ∈ (s.seg i).pts := finish_mem (s.seg i)
  refine ⟨pts_subset hs h0, pts_subset h0 he, fun x hx => ?_⟩
  rcases le_total x p with hle | hle
  · left
    rw [mem_sub_iff hs h0 h1]
    exact ⟨hx, h.lo_seg hi ▸ lo_le hx, hle⟩
  · right
    rw [mem_sub_iff h0 he h2]
    exact ⟨hx, hle, h.hi_seg hi ▸ le_hi hx⟩

theorem Refines.divide {s t : State K} {o : Nat → Nat} (h : Refines s t o) (hw : t.WF) {i : Nat}
    (hi : i < t.nextLeft) {p : Point K} (hp : (t.seg i).Inner p) :
    Refines s (t.divide i p) (fun j => if j = t.nextLeft then o i else o j) := by
  obtain ⟨-, hp1, hp2⟩ := (hw.inner_iff hi).mp hp
  obtain ⟨s1, s2, s3⟩ := divide_parts hw hi hp
  have cases : ∀ j, j < (t.divide i p).nextLeft → j < t.nextLeft ∨ j = t.nextLeft := by
    intro j hj
    exact Nat.lt_succ_iff_lt_or_eq.mp hj
  have old : ∀ j, j < t.nextLeft → (if j = t.nextLeft then o i else o j) = o j := by
    intro j hj
    rw [if_neg hj.ne]
  have new : (if t.nextLeft = t.nextLeft then o i else o t.nextLeft) = o i := if_pos rfl
  have hr := hw.leftRight i hi
  refine ⟨?_, ?_, ?_, ?_, ?_, ?_, ?_, ?_⟩
  · intro j hj
    rcases cases j hj with hj' | rfl
    · rw [old j hj']; exact h.lt j hj'
    · rw [new]; exact h.lt i hi
  · intro j hj
    rcases cases j hj with hj' | rfl
    · rw [old j hj', divide_fromTest hw hi p hj']; exact h.fromTest j hj'
    · rw [new, divide_lefts_new hw hi p]; exact h.fromTest i hi
  · intro j hj
    rcases cases j hj with hj' | rfl
    · rw [old j hj']
      by_cases hij : j = i
      · subst hij; rw [divide_lefts_self hw hi p]; exact h.interiorToLeft j hj'
      · rw [divide_lefts_other hw hi p hj' hij]; exact h.interiorToLeft j hj'
    · rw [new, divide_lefts_new hw hi p]; exact h.interiorToLeft i hi
  · intro j hj
    rcases cases j hj with hj' | rfl
    · rw [old j hj']
      by_cases hij : j = i
      · subst hij; rw [divide_lefts_self hw hi p]; exact h.originalStart j hj'
      · rw [divide_lefts_other hw hi p hj' hij]; exact h.originalStart j hj'
    · rw [new, divide_lefts_new hw hi p]; exact h.originalStart i hi
  · intro j hj
    rcases cases j hj with hj' | rfl
    · rw [old j hj']
      by_cases hij : j = i
      · subst hij
        rw [divide_lefts_self hw hi p]
        simp only
        rw [divide_rights_new hw hi p]
        exact h.originalEnd j hj'
      · rw [divide_lefts_other hw hi p hj' hij, divide_rights_other hw hi p (hw.leftRight j hj').1]
        · exact h.originalEnd j hj'
        · intro e
          have := (hw.leftRight j hj').2
          rw [e, hr.2] at this
          exact hij this.symm
    · rw [new, divide_lefts_new hw hi p]
      simp only
      rw [divide_rights_self hw hi p]
      exact h.originalEnd i hi
  · intro j hj
    rcases cases j hj with hj' | rfl
    · rw [old j hj']
      by_cases hij : j = i
      · subst hij; exact s1.trans (h.subset j hj')
      · rw [divide_seg_other hw hi p hj' hij]; exact h.subset j hj'
    · rw [new]; exact s2.trans (h.subset i hi)
  · intro j hj x hx
    obtain ⟨k, k1, k2, k3⟩ := h.cover j hj x hx
    by_cases hki : k = i
    · subst hki
      rcases s3 x k3 with hx' | hx'
      · exact ⟨k, Nat.lt_succ_of_lt k1, by rw [old k k1]; exact k2, hx'⟩
      · exact ⟨t.nextLeft, Nat.lt_succ_self _, by rw [new]; exact k2, hx'⟩
    · exact ⟨k, Nat.lt_succ_of_lt k1, by rw [old k k1]; exact k2,
        by rw [divide_seg_other hw hi p k1 hki]; exact k3⟩
  · have mixed : ∀ j, j < t.nextLeft → o i = o j →
        (t.divide i p).leftEnd t.nextLeft ≤ ((t.divide i p).lefts j).start ∨
        (t.divide i p).leftEnd j ≤ ((t.divide i p).lefts t.nextLeft).start := by
      intro j hj e
      rw [divide_leftEnd_new hw hi p, divide_start hw hi p hj, divide_lefts_new hw hi p]
      simp only
      by_cases hij : j = i
      · subst hij
        right; rw [divide_leftEnd_self hw hi p]
      · rw [divide_leftEnd_other hw hi p hj hij]
        rcases h.apart i hi j hj (fun e => hij e.symm) e with h1 | h1
        · exact .inl h1
        · exact .inr (h1.trans hp1.le)
    intro j hj k hk hjk e
    rcases cases j hj with hj' | rfl
    · rw [old j hj'] at e
      rcases cases k hk with hk' | rfl
      · rw [old k hk'] at e
        rw [divide_start hw hi p hj', divide_start hw hi p hk']
        have := h.apart j hj' k hk' hjk e
        by_cases hji : j = i
        · subst hji
          rw [divide_leftEnd_self hw hi p, divide_leftEnd_other hw hi p hk' hjk.symm]
          exact this.imp (fun h => hp2.le.trans h) id
        · rw [divide_leftEnd_other hw hi p hj' hji]
          by_cases hki : k = i
          · subst hki
            rw [divide_leftEnd_self hw hi p]
            exact this.imp id (fun h => hp2.le.trans h)
          · rw [divide_leftEnd_other hw hi p hk' hki]; exact this
      · rw [new] at e
        exact (mixed j hj' e.symm).symm
    · rw [new] at e
      rcases cases k hk with hk' | rfl
      · rw [old k hk'] at e
        exact mixed k hk' e
      · exact absurd rfl hjk

theorem Runs.refines {s s' : State K} (h : Runs s s') (hw : s.WF) : ∃ o, Refines s s' o := by
  induction h with
  | refl => exact ⟨id, .refl s⟩
  | elem h1 h2 ih =>
    obtain ⟨o, ho⟩ := ih
    have hw1 := h1.wf hw
    cases h2 with
    | flags h _ => exact ⟨o, ho.shape h⟩
    | relation h => exact ⟨o, ho.shape h.shape⟩
    | divide i p hi hp _ => exact ⟨_, ho.divide hw1 hi hp⟩
  | pop e _ _ ih =>
    obtain ⟨o, ho⟩ := ih
    exact ⟨o, ho.pop _⟩

/-- A piece can only become shorter. -/
theorem Runs.seg_subset {s s' : State K} (h : Runs s s') (hw : s.WF) {i : Nat} (hi : i < s.nextLeft) :
    (s'.seg i).pts ⊆ (s.seg i).pts := by
  induction h with
  | refl => exact subset_rfl
  | elem h1 h2 ih =>
    refine subset_trans ?_ ih
    have hw1 := h1.wf hw
    have hi1 := lt_of_lt_of_le hi h1.nextLeft_le.1
    cases h2 with
    | flags h _ => rw [h.seg]
    | relation h => rw [h.shape.seg]
    | divide k p hk hp _ =>
      by_cases hik : i = k
      · subst hik; exact (divide_parts hw1 hk hp).1
      · rw [divide_seg_other hw1 hk p hi1 hik]
  | pop e _ _ ih => exact ih

/-- The points of the pieces of an operand. -/
def operand (s : State K) (fromTest : Bool) : Set (Point K) :=
  {x | ∃ i < s.nextLeft, (s.lefts i).fromTest = fromTest ∧ x ∈ (s.seg i).pts}

/-- Dividing does not change the operands. -/
theorem Refines.operand {s s' : State K} {o : Nat → Nat} (h : Refines s s' o) (b : Bool) :
    s'.operand b = s.operand b := by
  ext x
  constructor
  · rintro ⟨i, hi, hb, hx⟩
    exact ⟨o i, h.lt i hi, h.fromTest i hi ▸ hb, h.subset i hi hx⟩
  · rintro ⟨j, hj, hb, hx⟩
    obtain ⟨i, hi, rfl, hx'⟩ := h.cover j hj x hx
    exact ⟨i, hi, (h.fromTest i hi).trans hb, hx'⟩

/-- Pieces of one segment meet at endpoints only. -/
theorem Refines.meet {s s' : State K} {o : Nat → Nat} (h : Refines s s' o) (hw : s'.WF) {i j : Nat}
    (hi : i < s'.nextLeft) (hj : j < s'.nextLeft) (hij : i ≠ j) (e : o i = o j) {x : Point K}
    (hx : x ∈ (s'.seg i).pts) (hx' : x ∈ (s'.seg j).pts) :
    (s'.seg i).IsEndpoint x ∧ (s'.seg j).IsEndpoint x := by
  have a1 := lo_le hx
  have a2 := le_hi hx
  have b1 := lo_le hx'
  have b2 := le_hi hx'
  rw [hw.lo_seg hi] at a1
  rw [hw.hi_seg hi] at a2
  rw [hw.lo_seg hj] at b1
  rw [hw.hi_seg hj] at b2
  rcases h.apart i hi j hj hij e with h1 | h1
  · have e1 : x = s'.leftEnd i := le_antisymm a2 (h1.trans b1)
    have e2 : x = (s'.lefts j).start := le_antisymm (a2.trans h1) b1
    exact ⟨.inr e1, .inl e2⟩
  · have e1 : x = s'.leftEnd j := le_antisymm b2 (h1.trans a1)
    have e2 : x = (s'.lefts i).start := le_antisymm (b2.trans h1) a1
    exact ⟨.inl e2, .inr e1⟩

theorem Refines.subsingleton {s s' : State K} {o : Nat → Nat} (h : Refines s s' o) (hw : s'.WF)
    {i j : Nat} (hi : i < s'.nextLeft) (hj : j < s'.nextLeft) (hij : i ≠ j) (e : o i = o j) :
    ((s'.seg i).pts ∩ (s'.seg j).pts).Subsingleton := by
  intro x hx y hy
  have key : ∀ z ∈ (s'.seg i).pts ∩ (s'.seg j).pts,
      (s'.leftEnd i ≤ (s'.lefts j).start → z = s'.leftEnd i) ∧
      (s'.leftEnd j ≤ (s'.lefts i).start → z = s'.leftEnd j) := by
    rintro z ⟨hz, hz'⟩
    have a1 := lo_le hz
    have a2 := le_hi hz
    have b1 := lo_le hz'
    have b2 := le_hi hz'
    rw [hw.lo_seg hi] at a1
    rw [hw.hi_seg hi] at a2
    rw [hw.lo_seg hj] at b1
    rw [hw.hi_seg hj] at b2
    exact ⟨fun h1 => le_antisymm a2 (h1.trans b1), fun h1 => le_antisymm b2 (h1.trans a1)⟩
  rcases h.apart i hi j hj hij e with h1 | h1
  · exact ((key x hx).1 h1).trans ((key y hy).1 h1).symm
  · exact ((key x hx).2 h1).trans ((key y hy).2 h1).symm

/-- An overlap of pieces of one operand comes from an overlap of its segments. -/
theorem Refines.clash {s s' : State K} {o : Nat → Nat} (h : Refines s s' o) (hw : s'.WF)
    (hc : eventsQueue.Clash s') : eventsQueue.Clash s := by
  obtain ⟨a, b, ha, hb, hab, hf, hn⟩ := hc
  refine ⟨o a, o b, h.lt a ha, h.lt b hb, ?_, ?_, ?_⟩
  · intro e
    exact Set.not_subsingleton_iff.mpr hn (h.subsingleton hw ha hb hab e)
  · rw [← h.fromTest b hb, ← h.fromTest a ha]; exact hf
  · exact hn.mono (Set.inter_subset_inter (h.subset a ha) (h.subset b hb))

end Orient.State
